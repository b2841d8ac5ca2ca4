import Verif.Parallel.Life
/-!
# C95: the life of a parallel runner
-/
namespace Verif.Parallel.Life
open Verif.Common Verif.Parallel

/-- no thread uses the runner and the pool has no job for it -/
def Quiet (s : St) : Prop := s.pool = 0 ∧ ∀ pc ∈ s.threads, pc = PC.idle

/-- the part of a thread's work in which it posts, starts, executes tasks or leaves the loop (up to and including the accesses of lines 226-358) -/
def Working (pc : PC) : Prop := pc ≠ .idle ∧ pc ≠ .tail ∧ pc ≠ .tail2 ∧ pc ≠ .clean ∧ pc ≠ .clean2

theorem Inv.working {s : St} (h : Inv s) {i : Nat} {pc : PC} (e : s.threads[i]? = some pc) (hw : Working pc) : s.dead = false := by
  have hc : pc.counted = 1 ∨ pc.post = 1 ∨ pc.rels = 1 := by
    obtain ⟨h1, h2, h3, h4, h5⟩ := hw
    cases pc <;> simp_all [PC.counted, PC.post, PC.rels]
  apply h.live
  rcases hc with hc | hc | hc
  · exact .inr (.inl (counted_pos h.par e hc))
  · have := posts_pos e hc
    have := h.posts
    exact .inl (by omega)
  · have := le_sumBy PC.rels s.threads i pc e
    exact .inr (.inr (by omega))

/-- **C95**, the working part. In every execution – any number of posting threads, executors, refusals by the pool, stops, references given up at any moment – the runner exists while a user owns a
reference and while a thread posts a task, runs a task, or takes part in the bookkeeping around it (lines 226-358 and 364-390); in particular it is destroyed at most once. The only accesses of a destroyed
runner are those of an executor after `ExecuteTaskRunner` has returned (lines 317-323, 393-407). Missing for the full claim: just these, `C95_after_fails`. -/
theorem C95_working_partial {mx : Nat} {late : Bool} {s : St} (h : Reach mx late s) :
    (0 < s.user → s.dead = false) ∧
    (∀ (i : Nat) (pc : PC), s.threads[i]? = some pc → Working pc → s.dead = false) ∧
    (∀ pc, s.bad = some pc → pc = .tail ∨ pc = .tail2 ∨ pc = .clean ∨ pc = .clean2) := by
  have hi := Inv.reach h
  refine ⟨fun hu => hi.live (.inl hu), fun i pc e hw => hi.working e hw, fun pc e => ?_⟩
  have := hi.bad pc e
  cases pc <;> simp_all [PC.after]

/-- in late executions the runner is not without users while anybody is active -/
theorem late_quiet {mx : Nat} {s : St} (h : Reach mx true s) : s.bad = none ∧ (s.user = 0 → Quiet s) := by
  induction h with
  | init n =>
    refine ⟨rfl, fun _ => ⟨rfl, fun pc hm => ?_⟩⟩
    exact List.eq_of_mem_replicate hm
  | @step s s' hr hs ih =>
    obtain ⟨hb, hq⟩ := ih
    have hi := Inv.reach hr
    -- a user is there unless all is quiet
    have act : ∀ {i : Nat} {pc : PC}, s.threads[i]? = some pc → pc ≠ .idle → s.user ≠ 0 := fun {i pc} e hn hu => hn ((hq hu).2 pc (List.mem_of_getElem? e))
    cases hs with
    | use i pc e hn hd =>
      have := act e hn
      rw [hi.live (.inl (by omega))] at hd
      cases hd
    | useUser hu hd =>
      rw [hi.live (.inl hu)] at hd
      cases hd
    | copy hd hu => exact ⟨hb, fun e => absurd e (by show s.user + 1 ≠ 0; omega)⟩
    | drop hd hu hl =>
      refine ⟨hb, fun e => ?_⟩
      have e' : s.user - 1 = 0 := e
      exact hl rfl (by omega)
    | keep i hd e => exact ⟨hb, fun e => absurd e (by show s.user + 1 ≠ 0; omega)⟩
    | join hd hu => exact ⟨hb, fun e => absurd e (by show s.user ≠ 0; omega)⟩
    | interrupt hd hu => exact ⟨hb, fun e => absurd e (by show s.user ≠ 0; omega)⟩
    | post i hd e hu _ => exact ⟨hb, fun e => absurd e (by show s.user ≠ 0; omega)⟩
    | start i e hp => exact ⟨hb, fun e' => absurd (hq e').1 (by omega)⟩
    | cas i hd e _ => exact ⟨hb, fun e' => absurd e' (act e (by simp))⟩
    | push i r f hd e => exact ⟨hb, fun e' => absurd e' (act e (by simp))⟩
    | addRef i hd e => exact ⟨hb, fun e' => absurd e' (act e (by simp))⟩
    | schedule i hd e => exact ⟨hb, fun e' => absurd e' (act e (by simp))⟩
    | refused i hd e => exact ⟨hb, fun e' => absurd e' (act e (by simp))⟩
    | failStop i hd e => exact ⟨hb, fun e' => absurd e' (act e (by simp))⟩
    | failDec i hd e => exact ⟨hb, fun e' => absurd e' (act e (by simp))⟩
    | failRel i hd e => exact ⟨hb, fun e' => absurd e' (act e (by simp))⟩
    | check i hd e => exact ⟨hb, fun e' => absurd e' (act e (by simp))⟩
    | intr i hd e => exact ⟨hb, fun e' => absurd e' (act e (by simp))⟩
    | pop i hd e _ _ => exact ⟨hb, fun e' => absurd e' (act e (by simp))⟩
    | popNone i hd e _ _ => exact ⟨hb, fun e' => absurd e' (act e (by simp))⟩
    | done i hd e => exact ⟨hb, fun e' => absurd e' (act e (by simp))⟩
    | sub i hd e => exact ⟨hb, fun e' => absurd e' (act e (by simp))⟩
    | rel i o hd e => exact ⟨hb, fun e' => absurd e' (act e (by simp))⟩
    | brk i hd e => exact ⟨hb, fun e' => absurd e' (act e (by simp))⟩
    | tail i hd e => exact ⟨hb, fun e' => absurd e' (act e (by simp))⟩
    | tail2 i hd e => exact ⟨hb, fun e' => absurd e' (act e (by simp))⟩
    | clean i hd e => exact ⟨hb, fun e' => absurd e' (act e (by simp))⟩
    | clean2 i hd e => exact ⟨hb, fun e' => absurd e' (act e (by simp))⟩

/-- **C95**, careful users. If the last reference of the users is only given up while no executor is active, a destroyed runner is never used. -/
theorem C95_late_partial {mx : Nat} {s : St} (h : Reach mx true s) : s.bad = none := (late_quiet h).1

/-- **C95**, destruction. When the users have given up their references and nobody is active, the runner is destroyed – unless the last active executor has ever left through line 358 (`leaked`), which
keeps the shared reference (`C95_leak_fails`): the count is then exactly the number of these events. -/
theorem C95_destroyed_partial {mx : Nat} {late : Bool} {s : St} (h : Reach mx late s) (hu : s.user = 0) (hq : Quiet s) :
    s.refs = s.leaked ∧ (s.dead = true ↔ s.leaked = 0) := by
  have hi := Inv.reach h
  have z : ∀ f : PC → Nat, f .idle = 0 → sumBy f s.threads = 0 := fun f e => by
    rw [sumBy_eq_zero]
    intro x hx
    rw [hq.2 x hx, e]
  have h1 := hi.par
  have h2 := hi.refs
  rw [z _ rfl, hq.1] at h1
  rw [z _ rfl, z _ rfl, hu, group_zero (by omega)] at h2
  have e : s.refs = s.leaked := by omega
  refine ⟨e, ?_⟩
  rw [hi.dead, e]
  simp

/-- the count while all is quiet: the users' references and the leaked ones -/
theorem C95_quiet_count {mx : Nat} {late : Bool} {s : St} (h : Reach mx late s) (hq : Quiet s) : s.refs = s.user + s.leaked := by
  have hi := Inv.reach h
  have z : ∀ f : PC → Nat, f .idle = 0 → sumBy f s.threads = 0 := fun f e => by
    rw [sumBy_eq_zero]
    intro x hx
    rw [hq.2 x hx, e]
  have h1 := hi.par
  have h2 := hi.refs
  rw [z _ rfl, hq.1] at h1
  rw [z _ rfl, z _ rfl, group_zero (by omega)] at h2
  omega

/-! ### The failures -/

/-- a word with one task pending and one executor -/
theorem wrap_zero : wrap 0 = 0 := by unfold wrap cntMod; decide
theorem wrap_1 : wrap 1 = 1 := by unfold wrap cntMod; decide
theorem wrap_one : wrap (0 + 1) = 1 := by unfold wrap cntMod; decide
theorem wrap_back : wrap (1 - 1) = 0 := by unfold wrap cntMod; decide

/-- a user (thread 0) has posted one task, thread 1 runs it -/
theorem running (mx : Nat) (hm : 0 < mx) (late : Bool) : Reach mx late { word := { cnt := 1, par := 1 }, refs := 2, threads := [.idle, .run] } := by
  have hr : raises mx { } = true := by simp [raises, wrap_1, i32, hm]
  have h0 : Reach mx late { threads := [.idle, .idle] } := .init 2
  have h1 := Reach.step h0 (.post _ 0 rfl rfl (by simp [St.posts, PC.post]) rfl)
  have h2 := Reach.step h1 (.cas _ 0 rfl rfl rfl)
  simp only [St.set, hr, wrap_one, List.set, Bool.toNat_true, decide_true] at h2
  have h3 := Reach.step h2 (.push _ 0 true true rfl rfl)
  have h4 := Reach.step h3 (.addRef _ 0 rfl rfl)
  have h5 := Reach.step h4 (.schedule _ 0 rfl rfl)
  have h6 := Reach.step h5 (.start _ 1 rfl (by decide))
  have h7 := Reach.step h6 (.check _ 1 rfl rfl)
  have h8 := Reach.step h7 (.intr _ 1 rfl rfl)
  exact Reach.step h8 (.pop _ 1 rfl rfl rfl (by decide))

/-- **C95** fails: a user posts one task and gives up the runner while the task runs. When the task is over, `SubtractWakeupOnce` releases the last reference (387); the runner is destroyed, and the
executor goes on to call `IsShared()` on it and to read its flags (317-323): a use after destruction, whatever the maximum of parallel tasks. -/
theorem C95_after_fails (mx : Nat) (hm : 0 < mx) : ∃ s, Reach mx false s ∧ s.dead = true ∧ s.bad = some .tail := by
  have h1 := Reach.step (running mx hm false) (.drop _ rfl (by simp [St.posts, PC.post]) (by simp))
  have h2 := Reach.step h1 (.done _ 1 rfl rfl)
  have h3 := Reach.step h2 (.sub _ 1 rfl rfl)
  have hl : leaves { cnt := 1, par := 1 } = true := by simp [leaves, wrap_zero, i32]
  simp only [St.set, St.release, hl, List.set] at h3
  have h4 := Reach.step h3 (.rel _ 1 true rfl rfl)
  have h5 := Reach.step h4 (.use _ 1 .tail rfl (by simp) rfl)
  exact ⟨_, h5, rfl, rfl⟩

/-- nobody owns the runner, nobody works on it, it is not destroyed -/
def Lost (s : St) : Prop := s.user = 0 ∧ Quiet s ∧ s.dead = false ∧ 0 < s.refs

theorem lost_step {mx : Nat} {late : Bool} {s s' : St} (h : Lost s) (hs : Step mx late s s') : Lost s' := by
  obtain ⟨hu, ⟨hp, ht⟩, hd, hr⟩ := h
  have no : ∀ {i : Nat} {pc : PC}, s.threads[i]? = some pc → pc ≠ .idle → False := fun e hn => hn (ht _ (List.mem_of_getElem? e))
  cases hs with
  | use i pc e hn hd' => exact (no e hn).elim
  | useUser hu' hd' => omega
  | copy _ hu' => omega
  | drop _ hu' _ => omega
  | keep i _ e => exact (no e (by simp)).elim
  | join _ hu' => omega
  | interrupt _ hu' => omega
  | post i _ e hu' _ => omega
  | start i e hp' => omega
  | cas i _ e _ => exact (no e (by simp)).elim
  | push i r f _ e => exact (no e (by simp)).elim
  | addRef i _ e => exact (no e (by simp)).elim
  | schedule i _ e => exact (no e (by simp)).elim
  | refused i _ e => exact (no e (by simp)).elim
  | failStop i _ e => exact (no e (by simp)).elim
  | failDec i _ e => exact (no e (by simp)).elim
  | failRel i _ e => exact (no e (by simp)).elim
  | check i _ e => exact (no e (by simp)).elim
  | intr i _ e => exact (no e (by simp)).elim
  | pop i _ e _ _ => exact (no e (by simp)).elim
  | popNone i _ e _ _ => exact (no e (by simp)).elim
  | done i _ e => exact (no e (by simp)).elim
  | sub i _ e => exact (no e (by simp)).elim
  | rel i o _ e => exact (no e (by simp)).elim
  | brk i _ e => exact (no e (by simp)).elim
  | tail i _ e => exact (no e (by simp)).elim
  | tail2 i _ e => exact (no e (by simp)).elim
  | clean i _ e => exact (no e (by simp)).elim
  | clean2 i _ e => exact (no e (by simp)).elim

inductive Steps (mx : Nat) (late : Bool) : St → St → Prop
  | refl (s : St) : Steps mx late s s
  | step {s s' s'' : St} : Steps mx late s s' → Step mx late s' s'' → Steps mx late s s''

/-- **C95** fails: a user posts two tasks to a runner with one executor and gives it up while the first one runs. The executor sees that it is the only owner left (338), leaves through line 358 without
`Release` and cancels the second task; the runner is never destroyed. -/
theorem C95_leak_fails : ∃ s, Reach 1 false s ∧ Lost s ∧ s.q = 0 ∧ ∀ s', Steps 1 false s s' → Lost s' := by
  have key : ∃ s, Reach 1 false s ∧ Lost s ∧ s.q = 0 := by
    have h0 := running 1 (by decide) false
    have h1 := Reach.step h0 (.post _ 0 rfl rfl (by simp [St.posts, PC.post]) rfl)
    have h2 := Reach.step h1 (.cas _ 0 rfl rfl rfl)
    have hr : raises 1 { cnt := 1, par := 1 } = false := by simp [raises]
    have w2 : wrap (1 + 1) = 2 := by unfold wrap cntMod; decide
    simp only [St.set, hr, w2, List.set, Bool.toNat_false, Nat.add_zero] at h2
    have h3 := Reach.step h2 (.push _ 0 false false rfl rfl)
    have h4 := Reach.step h3 (.drop _ rfl (by decide) (by simp))
    have h5 := Reach.step h4 (.done _ 1 rfl rfl)
    have h6 := Reach.step h5 (.sub _ 1 rfl rfl)
    have hl : leaves { cnt := 2, par := 1 } = false := by simp [leaves, wrap_1, i32]
    have w1 : wrap (2 - 1) = 1 := by unfold wrap cntMod; decide
    simp only [St.set, St.release, hl, w1, List.set] at h6
    have h7 := Reach.step h6 (.check _ 1 rfl rfl)
    have h8 := Reach.step h7 (.brk _ 1 rfl rfl)
    have h9 := Reach.step h8 (.tail _ 1 rfl rfl)
    have h10 := Reach.step h9 (.clean _ 1 rfl rfl)
    have h11 := Reach.step h10 (.clean2 _ 1 rfl rfl)
    refine ⟨_, h11, ⟨rfl, ⟨rfl, ?_⟩, rfl, by decide⟩, rfl⟩
    intro pc hm
    simp [St.set, St.release] at hm
    exact hm
  obtain ⟨s, h, hl, hq⟩ := key
  refine ⟨s, h, hl, hq, fun s' hs => ?_⟩
  induction hs with
  | refl => exact hl
  | step _ hstep ih => exact lost_step ih hstep

/-- `Interrupt` has the same effect: the executor leaves through line 358, the runner outlives its users for ever, although the task queue is empty and `Join` was never needed. -/
theorem C95_interrupt_leak_fails : ∃ s, Reach 1 false s ∧ Lost s ∧ ∀ s', Steps 1 false s s' → Lost s' := by
  have key : ∃ s, Reach 1 false s ∧ Lost s := by
    have h0 := running 1 (by decide) false
    have h1 := Reach.step h0 (.post _ 0 rfl rfl (by simp [St.posts, PC.post]) rfl)
    have h2 := Reach.step h1 (.cas _ 0 rfl rfl rfl)
    have hr : raises 1 { cnt := 1, par := 1 } = false := by simp [raises]
    have w2 : wrap (1 + 1) = 2 := by unfold wrap cntMod; decide
    simp only [St.set, hr, w2, List.set, Bool.toNat_false, Nat.add_zero] at h2
    have h3 := Reach.step h2 (.push _ 0 false false rfl rfl)
    have h4 := Reach.step h3 (.interrupt _ rfl (by decide))
    have h5 := Reach.step h4 (.done _ 1 rfl rfl)
    have h6 := Reach.step h5 (.sub _ 1 rfl rfl)
    have hl : leaves { stop := true, intr := true, cnt := 2, par := 1 } = false := by simp [leaves, wrap_1, i32]
    have w1 : wrap (2 - 1) = 1 := by unfold wrap cntMod; decide
    simp only [St.set, hl, w1, List.set] at h6
    have h7 := Reach.step h6 (.check _ 1 rfl rfl)
    have h8 := Reach.step h7 (.intr _ 1 rfl rfl)
    have h9 := Reach.step h8 (.brk _ 1 rfl rfl)
    have h10 := Reach.step h9 (.tail _ 1 rfl rfl)
    have h11 := Reach.step h10 (.tail2 _ 1 rfl rfl)
    have h12 := Reach.step h11 (.clean _ 1 rfl rfl)
    have h13 := Reach.step h12 (.clean2 _ 1 rfl rfl)
    have h14 := Reach.step h13 (.drop _ rfl (by decide) (by simp))
    refine ⟨_, h14, rfl, ⟨rfl, ?_⟩, rfl, by decide⟩
    intro pc hm
    simp [St.set, St.release] at hm
    exact hm
  obtain ⟨s, h, hl⟩ := key
  refine ⟨s, h, hl, fun s' hs => ?_⟩
  induction hs with
  | refl => exact hl
  | step _ hstep ih => exact lost_step ih hstep

/-- A careful user: the task ends, the executor returns, then the reference is given up and the runner is destroyed, with nothing leaked. -/
theorem C95_example : ∃ s, Reach 4 true s ∧ s.user = 0 ∧ Quiet s ∧ s.dead = true ∧ s.bad = none ∧ s.leaked = 0 := by
  have h1 := Reach.step (running 4 (by decide) true) (.done _ 1 rfl rfl)
  have h2 := Reach.step h1 (.sub _ 1 rfl rfl)
  have hl : leaves { cnt := 1, par := 1 } = true := by simp [leaves, wrap_zero, i32]
  simp only [St.set, hl, wrap_back, List.set] at h2
  have h3 := Reach.step h2 (.rel _ 1 true rfl rfl)
  have h4 := Reach.step h3 (.tail _ 1 rfl rfl)
  simp [St.set, St.release] at h4
  have h5 := Reach.step h4 (.clean _ 1 rfl rfl)
  have h6 := Reach.step h5 (.clean2 _ 1 rfl rfl)
  have h7 := Reach.step h6 (.drop _ rfl (by simp [St.posts, PC.post, St.set]) (by simp [St.set]))
  refine ⟨_, h7, rfl, ⟨rfl, ?_⟩, rfl, rfl, rfl⟩
  intro pc hm
  simp [St.set, St.release] at hm
  exact hm

end Verif.Parallel.Life
