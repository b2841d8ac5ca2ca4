import Verif.Send.Model

/-!
# C66: `SendTask` runs the callback once and returns when it is over

The claim is false in two ways. `_oWorkEntry` is a local variable, and the executor still calls `Release`
on it after `Wakeup` has let the sender go on (`C66_stack_fails`). `WaitTask` does not look at `hr` again
when `WaitOnAddress` returns early (`C66_spurious_fails`). What holds:

* `C66_result_partial`: if waits do not return early, the returned value tells exactly what happened to the
  callback, and nothing more happens to it afterwards;
* `C66_once`: the callback is started at most once, even with early returns;
* `C66_progress`: the sender is never left waiting when the runner is through with the entry;
* `C66_stack_partial`: the entry is accessed after the return only by the runner's last two accesses
  (`Wakeup` has been done, `Release` missing), never otherwise;
* `C66_direct`: the call from within the runner.
-/
namespace Verif.Send

/-- What a sender may be told, in terms of the history of the callback alone. -/
inductive Tells : Ret → Nat → List Outcome → Prop
  /-- success: it ran once, to its end -/
  | ok : Tells (.hr .ok) 1 [.normal]
  /-- cancelled: it ran once and asked for cancellation by its exception -/
  | cancel : Tells (.hr .cancelled) 1 [.cancel]
  /-- cancelled: it was not run -/
  | dropped : Tells (.hr .cancelled) 0 []
  /-- refused: it was not run -/
  | refused : Tells .refused 0 []

/-- Relation between the place of the entry and the history of the callback. -/
def ExecInv (s : St) : Prop :=
  match s.exec with
  | .none | .queued | .popped | .cleaning => s.started = 0 ∧ s.outcomes = [] ∧ s.hr = .pending ∧ s.crashed = false
  | .running => s.started = 1 ∧ s.outcomes = [] ∧ s.hr = .pending ∧ s.crashed = false
  | .ran h => s.started = 1 ∧ s.hr = .pending ∧
      ((s.outcomes = [.normal] ∧ h = .ok ∧ s.crashed = false) ∨
       (s.outcomes = [.cancel] ∧ h = .cancelled ∧ s.crashed = false) ∨
       (s.outcomes = [.other] ∧ s.crashed = true))
  | .woken | .done => s.crashed = false ∧
      ((s.started = 1 ∧ s.outcomes = [.normal] ∧ s.hr = .ok) ∨
       (s.started = 1 ∧ s.outcomes = [.cancel] ∧ s.hr = .cancelled) ∨
       (s.started = 0 ∧ s.outcomes = [] ∧ s.hr = .cancelled))

/-- References held: the variable itself, and the one travelling through the runner. -/
def refs (s : St) : Nat :=
  1 + (if s.exec = .none then (if s.snd = .posting then 1 else 0) else if s.exec = .done then 0 else 1)

def SndInv (s : St) : Prop :=
  match s.snd with
  | .start => s.exec = .none
  | .posting => True
  | .waiting | .reading => s.exec ≠ .none
  | .returned .refused => s.exec = .none ∨ (s.exec = .done ∧ s.started = 0)
  | .returned (.hr _) => s.exec ≠ .none

structure Inv (s : St) : Prop where
  exec : ExecInv s
  snd : SndInv s
  ref : s.ref = refs s

/-- Additional facts when waits do not return early. -/
def Strict (s : St) : Prop :=
  (s.snd = .reading → s.exec = .woken ∨ s.exec = .done) ∧
  (∀ h, s.snd = .returned (.hr h) → h = s.hr ∧ (s.exec = .woken ∨ s.exec = .done)) ∧
  (s.bad = true → s.exec = .done ∧ ∃ r, s.snd = .returned r)

theorem touch_eq (s : St) : touch s = s ∨ (touch s = { s with bad := true } ∧ ∃ r, s.snd = .returned r) := by
  unfold touch
  by_cases h : s.alive
  · exact .inl (if_pos h)
  · refine .inr ⟨if_neg h, ?_⟩
    refine Classical.byContradiction fun hn => h ?_
    intro r e
    exact hn ⟨r, e⟩

theorem inv_init : Inv {} := ⟨by simp [ExecInv], by simp [SndInv], by simp [refs]⟩

/-- case distinction on the sender -/
local macro "sndcases " s:ident : tactic => `(tactic|
  (cases hsn : St.snd $s with
   | returned r => cases r <;> simp_all [SndInv, wakeup, ExecInv]
   | _ => simp_all [SndInv, wakeup, ExecInv]))

theorem inv_step {sp s s'} (h : Inv s) (st : Step sp s s') : Inv s' := by
  obtain ⟨he, hs, hr⟩ := h
  cases st with
  | post c p =>
    simp only [SndInv, p] at hs
    refine ⟨?_, ?_, ?_⟩ <;> simp_all [ExecInv, SndInv, refs]
  | refuse c p e =>
    have : s.ref = 2 := by simp [hr, refs, e, p]
    refine ⟨?_, ?_, ?_⟩ <;> simp_all [ExecInv, SndInv, refs, release]
  | push c p e => refine ⟨?_, ?_, ?_⟩ <;> simp_all [ExecInv, SndInv, refs]
  | sleep c p e =>
    refine ⟨?_, ?_, ?_⟩
    · simpa [ExecInv] using he
    · simpa [SndInv] using e
    · simp [refs, hr, e]
  | refuseLate c p e => refine ⟨?_, ?_, ?_⟩ <;> simp_all [ExecInv, SndInv, refs]
  | wake c p e =>
    refine ⟨by simpa [ExecInv] using he, ?_, ?_⟩ <;> simp_all [SndInv, refs]
  | spurious c _ p =>
    refine ⟨by simpa [ExecInv] using he, ?_, ?_⟩ <;> simp_all [SndInv, refs]
  | ret c p =>
    refine ⟨by simpa [ExecInv] using he, ?_, ?_⟩ <;> simp_all [SndInv, refs]
  | pop c p =>
    refine ⟨by simp_all [ExecInv], ?_, by simp_all [refs]⟩
    sndcases s
  | start c p =>
    rcases touch_eq s with e | ⟨e, -⟩ <;> rw [e] <;>
    refine ⟨by simp_all [ExecInv], ?_, by simp_all [refs]⟩ <;>
    · sndcases s
  | finish o c p =>
    refine ⟨by cases o <;> simp_all [ExecInv, resultOf], ?_, by simp_all [refs]⟩
    sndcases s
  | store h' c p =>
    rcases touch_eq s with e | ⟨e, -⟩ <;> rw [e] <;>
    refine ⟨by simp_all [ExecInv, wakeup], ?_, by simp_all [refs, wakeup, ExecInv]⟩ <;>
    · sndcases s
  | clean c p =>
    refine ⟨by simp_all [ExecInv], ?_, by simp_all [refs]⟩
    sndcases s
  | cleanWake c p =>
    rcases touch_eq s with e | ⟨e, -⟩ <;> rw [e] <;>
    refine ⟨by simp_all [ExecInv, wakeup], ?_, by simp_all [refs, wakeup, ExecInv]⟩ <;>
    · sndcases s
  | release c p =>
    have h2 : s.ref = 2 := by simp [hr, refs, p]
    clear hr
    rcases touch_eq s with e | ⟨e, -⟩
    · have e1 : release s = { s with ref := 1 } := by simp [release, h2]
      rw [e, e1]
      refine ⟨by simp_all [ExecInv], ?_, by simp [refs]⟩
      sndcases s
    · have e1 : release { s with bad := true } = { s with ref := 1, bad := true } := by simp [release, h2]
      rw [e, e1]
      refine ⟨by simp_all [ExecInv], ?_, by simp [refs]⟩
      sndcases s

theorem reach_inv {sp s} (h : Reach sp s) : Inv s := by
  induction h with
  | init => exact inv_init
  | step _ st ih => exact inv_step ih st

theorem strict_step {s s'} (h : Inv s) (k : Strict s) (st : Step false s s') : Strict s' := by
  obtain ⟨he, hs, hr⟩ := h
  obtain ⟨k1, k2, k3⟩ := k
  cases st with
  | post c p => simp_all [Strict]
  | refuse c p e =>
    have : s.ref = 2 := by simp [hr, refs, e, p]
    have e1 : release s = { s with ref := 1 } := by simp [release, this]
    rw [e1]
    simp_all [Strict]
  | push c p e => simp_all [Strict]
  | sleep c p e => simp_all [Strict]
  | refuseLate c p e => simp_all [Strict]
  | wake c p e =>
    refine ⟨fun _ => ?_, by simp, by simp_all⟩
    cases hx : s.exec <;> simp_all [ExecInv]
  | spurious c f p => cases f
  | ret c p => simp_all [Strict]
  | pop c p =>
    refine ⟨by simp_all, ?_, by simp_all⟩
    intro h e; have := (k2 h e).2; simp_all
  | start c p =>
    have : touch s = s := by
      rcases touch_eq s with e | ⟨e, r, hr⟩
      · exact e
      · cases r with
        | hr h => have := (k2 h hr).2; simp_all
        | refused => simp [SndInv, hr, p] at hs
    rw [this]
    refine ⟨by simp_all, ?_, by simp_all⟩
    intro h e; have := (k2 h e).2; simp_all
  | finish o c p =>
    refine ⟨by simp_all, ?_, by simp_all⟩
    intro h e; have := (k2 h e).2; simp_all
  | store h' c p =>
    have : touch s = s := by
      rcases touch_eq s with e | ⟨e, r, hr⟩
      · exact e
      · cases r with
        | hr h => have := (k2 h hr).2; simp_all
        | refused => simp [SndInv, hr, p] at hs
    rw [this]
    have hp : s.hr = .pending := by simp_all [ExecInv]
    simp only [wakeup, hp, if_true]
    refine ⟨by simp_all, ?_, by simp_all⟩
    intro h e; have := (k2 h e).2; simp_all
  | clean c p =>
    refine ⟨by simp_all, ?_, by simp_all⟩
    intro h e; have := (k2 h e).2; simp_all
  | cleanWake c p =>
    have : touch s = s := by
      rcases touch_eq s with e | ⟨e, r, hr⟩
      · exact e
      · cases r with
        | hr h => have := (k2 h hr).2; simp_all
        | refused => simp [SndInv, hr, p] at hs
    rw [this]
    have hp : s.hr = .pending := by simp_all [ExecInv]
    simp only [wakeup, hp, if_true]
    refine ⟨by simp_all, ?_, by simp_all⟩
    intro h e; have := (k2 h e).2; simp_all
  | release c p =>
    have h2 : s.ref = 2 := by simp [hr, refs, p]
    rcases touch_eq s with e | ⟨e, r, hr⟩
    · rw [e]
      have hb : release s = { s with ref := 1 } := by simp [release, h2]
      rw [hb]
      refine ⟨by simp_all, ?_, by simp_all⟩
      intro h e; have := (k2 h e).1; simp_all
    · rw [e]
      have hb : release { s with bad := true } = { s with ref := 1, bad := true } := by simp [release, h2]
      rw [hb]
      refine ⟨by simp_all, ?_, by simp_all⟩
      intro h e; have := (k2 h e).1; simp_all

theorem reach_strict {s} (h : Reach false s) : Strict s := by
  induction h with
  | init => simp [Strict]
  | step hr st ih => exact strict_step (reach_inv hr) ih st

/-! ## Later states -/

/-- Any number of further steps of the call. -/
inductive Steps (sp : Bool) : St → St → Prop
  | refl (s) : Steps sp s s
  | tail {s t u} : Steps sp s t → Step sp t u → Steps sp s u

theorem Steps.reach {sp s t} (h : Steps sp s t) (r : Reach sp s) : Reach sp t := by
  induction h with
  | refl => exact r
  | tail _ st ih => exact .step ih st

/-- The sender has returned and the runner will not touch the callback any more. -/
def Over (s : St) : Prop :=
  (∃ r, s.snd = .returned r) ∧
  ((s.exec = .woken ∨ s.exec = .done) ∨ (s.exec = .none))

theorem over_step {sp s t} (h : Over s) (st : Step sp s t) :
    Over t ∧ t.started = s.started ∧ t.outcomes = s.outcomes ∧ t.snd = s.snd := by
  obtain ⟨⟨r, hr⟩, he⟩ := h
  cases st with
  | release c p =>
    rcases touch_eq s with e | ⟨e, -⟩ <;> rw [e] <;>
    · refine ⟨⟨⟨r, ?_⟩, .inl (.inr rfl)⟩, ?_⟩ <;> (simp only [Verif.Send.release]; split <;> simp [hr])
  | _ => simp_all

theorem over_steps {sp s t} (h : Over s) (st : Steps sp s t) :
    Over t ∧ t.started = s.started ∧ t.outcomes = s.outcomes ∧ t.snd = s.snd := by
  induction st with
  | refl => exact ⟨h, rfl, rfl, rfl⟩
  | tail _ st ih =>
    obtain ⟨h1, h2, h3, h4⟩ := ih
    obtain ⟨k1, k2, k3, k4⟩ := over_step h1 st
    exact ⟨k1, k2.trans h2, k3.trans h3, k4.trans h4⟩

/-! ## Property theorems -/

/-- **C66** (without early returns of `WaitOnAddress`). In every program with any number of calls: when a
`SendTask` has returned `r`, then `r` tells what happened to the callback (`ok`: it ran once to its end;
`cancelled`: it ran once and threw the cancellation, or was never started; `refused`: never started), and
this stays so in all later states: no second run, no late run. -/
theorem C66_result_partial {σ : Sys} (h : SysReach false σ) (i : Nat) (r : Ret) (hr : (σ i).snd = .returned r) :
    Tells r (σ i).started (σ i).outcomes ∧
    ∀ t, Steps false (σ i) t → t.started = (σ i).started ∧ t.outcomes = (σ i).outcomes := by
  have hi := reach_inv (h.proj i)
  have hst := reach_strict (h.proj i)
  generalize σ i = s at *
  obtain ⟨he, hs, -⟩ := hi
  obtain ⟨-, k2, -⟩ := hst
  cases r with
  | hr v =>
    obtain ⟨rfl, hx⟩ := k2 v hr
    refine ⟨?_, fun t st => ?_⟩
    · rcases hx with hx | hx <;> simp only [ExecInv, hx] at he <;>
      rcases he.2 with ⟨a, b, c⟩ | ⟨a, b, c⟩ | ⟨a, b, c⟩ <;> rw [a, b, c] <;> constructor
    · have := over_steps ⟨⟨_, hr⟩, .inl hx⟩ st
      exact ⟨this.2.1, this.2.2.1⟩
  | refused =>
    have hx : s.exec = .none ∨ (s.exec = .done ∧ s.started = 0) := by simpa [SndInv, hr] using hs
    refine ⟨?_, fun t st => ?_⟩
    · rcases hx with hx | ⟨hx, h0⟩
      · simp only [ExecInv, hx] at he
        rw [he.1, he.2.1]; exact .refused
      · simp only [ExecInv, hx, h0] at he
        rcases he.2 with ⟨a, -⟩ | ⟨a, -⟩ | ⟨-, b, -⟩
        · exact absurd a (by decide)
        · exact absurd a (by decide)
        · rw [h0, b]; exact .refused
    · have := over_steps (s := s) ⟨⟨_, hr⟩, by rcases hx with hx | ⟨hx, -⟩ <;> simp [hx]⟩ st
      exact ⟨this.2.1, this.2.2.1⟩

/-- **C66**: the callback is started at most once and ends at most once, whatever waits do. -/
theorem C66_once {sp} {σ : Sys} (h : SysReach sp σ) (i : Nat) :
    (σ i).started ≤ 1 ∧ (σ i).outcomes.length ≤ (σ i).started := by
  have hi := (reach_inv (h.proj i)).exec
  generalize σ i = s at *
  cases hx : s.exec <;> simp only [ExecInv, hx] at hi
  all_goals first
    | (obtain ⟨a, b, -⟩ := hi; simp [a, b]; done)
    | (obtain ⟨a, -, ⟨b, -⟩ | ⟨b, -⟩ | ⟨b, -⟩⟩ := hi <;> simp [a, b]; done)
    | (obtain ⟨-, ⟨a, b, -⟩ | ⟨a, b, -⟩ | ⟨a, b, -⟩⟩ := hi <;> simp [a, b]; done)

/-- **C66**: a sender is not forgotten: when the runner has nothing more to do with the entry and the sender
waits, `hr` has its final value, so the wait ends (no wake-up is lost), and the call returns two steps later. -/
theorem C66_progress {sp} {σ : Sys} (h : SysReach sp σ) (i : Nat) (hw : (σ i).snd = .waiting)
    (hx : (σ i).exec = .woken ∨ (σ i).exec = .done) :
    (σ i).hr ≠ .pending ∧ ∃ t u, Step sp (σ i) t ∧ Step sp t u ∧ u.snd = .returned (.hr (σ i).hr) := by
  have hi := (reach_inv (h.proj i)).exec
  generalize σ i = s at *
  have hc : s.crashed = false ∧ s.hr ≠ .pending := by
    rcases hx with hx | hx <;> simp only [ExecInv, hx] at hi <;>
    · refine ⟨hi.1, ?_⟩
      rcases hi.2 with ⟨-, -, c⟩ | ⟨-, -, c⟩ | ⟨-, -, c⟩ <;> simp [c]
  exact ⟨hc.2, _, _, .wake s hc.1 hw hc.2, .ret _ hc.1 rfl, rfl⟩

/-- **C66** (what is left of the lifetime claim): without early returns the only access of the runner to the
entry after the end of its life is the executor's last one, `Release`; the callback and `hr` are never
touched then, and the counter never reaches zero. -/
theorem C66_stack_partial {σ : Sys} (h : SysReach false σ) (i : Nat) :
    ((σ i).bad = true → (σ i).exec = .done ∧ ∃ r, (σ i).snd = .returned r) ∧ 1 ≤ (σ i).ref := by
  have hi := reach_inv (h.proj i)
  refine ⟨(reach_strict (h.proj i)).2.2, ?_⟩
  rw [hi.ref]; simp [refs]

/-- **C66**: from within the runner the callback is called in place. -/
theorem C66_direct (o : Outcome) :
    (direct o = some .ok ↔ o = .normal) ∧ (direct o = some .cancelled ↔ o = .cancel) ∧
    (direct o = none ↔ o = .other) := by
  cases o <;> simp [direct]

/-! ## Negations -/

/-- The call as it usually goes: post, push, sleep, pop, start, finish, store; the sender returns. -/
theorem demo_returned : Reach false
    { snd := .returned (.hr .ok), exec := .woken, hr := .ok, ref := 2, started := 1, outcomes := [.normal] } := by
  have r1 := Reach.step .init (Step.post (sp := false) _ rfl rfl)
  have r2 := Reach.step r1 (Step.push _ rfl rfl rfl)
  have r3 := Reach.step r2 (Step.sleep _ rfl rfl (by simp))
  have r4 := Reach.step r3 (Step.pop _ rfl rfl)
  have r5 := Reach.step r4 (Step.start _ rfl rfl)
  have r6 := Reach.step r5 (Step.finish _ .normal (by decide) rfl)
  have r7 := Reach.step r6 (Step.store _ .ok (by decide) rfl)
  have r8 := Reach.step r7 (Step.wake _ (by decide) (by decide) (by decide))
  have r9 := Reach.step r8 (Step.ret _ (by decide) rfl)
  have e : ∀ a b : St, a = b → Reach false a → Reach false b := fun a b h => h ▸ id
  exact e _ _ (by decide) r9

/-- **C66 fails** (lifetime), in the most ordinary run and without early returns: the sender has returned,
the executor calls `Release` on the dead local variable. -/
theorem C66_stack_fails : ∃ s, Reach false s ∧ s.bad = true ∧ s.snd = .returned (.hr .ok) := by
  refine ⟨_, .step demo_returned (Step.release _ rfl rfl), by decide, by decide⟩

/-- In every state in which the sender has returned its `hr` and the runner has not released its reference
yet, the next step of the runner is such an access. -/
theorem C66_stack_always_fails {sp s t} (r : Ret) (hr : s.snd = .returned r) (hx : s.exec = .woken)
    (st : Step sp s t) : t.bad = true := by
  cases st with
  | release c p =>
    have : touch s = { s with bad := true } := if_neg (fun h => h r hr)
    rw [this]; simp only [release]; split <;> rfl
  | _ => simp_all

/-- **C66 fails** (result) with an early return: the sender gets `E_PENDING` back, and afterwards the callback
is run, with everything it refers to in the sender's frame gone. -/
theorem C66_spurious_fails : ∃ s t, Reach true s ∧ s.snd = .returned (.hr .pending) ∧ s.started = 0 ∧
    Steps true s t ∧ t.started = 1 ∧ t.bad = true := by
  have r1 := Reach.step .init (Step.post (sp := true) _ rfl rfl)
  have r2 := Reach.step r1 (Step.push _ rfl rfl rfl)
  have r3 := Reach.step r2 (Step.sleep _ rfl rfl (by simp))
  have r4 := Reach.step r3 (Step.spurious _ rfl rfl rfl)
  have r5 := Reach.step r4 (Step.ret _ rfl rfl)
  refine ⟨_, _, r5, rfl, rfl, .tail (.tail (.refl _) (Step.pop _ rfl rfl)) (Step.start _ rfl rfl), by decide, by decide⟩

end Verif.Send
