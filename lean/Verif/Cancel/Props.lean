import Verif.Cancel.Step
import Verif.Delegate.Props

namespace Verif.Cancel
open Verif.Common
open Verif.CriticalSection (State lock unlock)

theorem ub_mono {s s' : St} (hs : Step s s') (h : s'.ub = false) : s.ub = false := by
  cases hs <;> first | exact h | cases h

theorem inv_reach {s : St} (h : Reach s) (hu : s.ub = false) : Inv s := by
  induction h with
  | init s h => exact inv_init h
  | step s s' _ hs ih => exact inv_step (ih (ub_mono hs hu)) hs hu

/-- **C53**: `Cancel` returns true at most once; it returns false only when another call of it has returned true or is under way -/
theorem C53_once (s : St) (h : Reach s) (hu : s.ub = false) :
    s.rets.count (.cancel true) ≤ 1 ∧ (s.cancelled = true → (∀ k ∈ s.stacks, k = []) → s.rets.count (.cancel true) = 1) := by
  have h1 := (inv_reach h hu).one
  have h2 : b2n s.cancelled ≤ 1 := by cases s.cancelled <;> simp [b2n]
  have h3 : trues s = s.rets.count (.cancel true) := rfl
  refine ⟨by omega, fun hc hq => ?_⟩
  rw [(sumBy_eq_zero _ _).2 fun k hk => by rw [hq k hk]; rfl, hc] at h1
  have : b2n true = 1 := rfl
  omega

/-- a call of `Cancel` that returns false had to find the token cancelled, and a token once cancelled stays so -/
theorem C53_false (s s' : St) (hs : Step s s') (hr : s'.rets = .cancel false :: s.rets) : s.cancelled = true ∧ s'.cancelled = true := by
  cases hs with
  | cancelNo i k hk hc => exact ⟨hc, hc⟩
  | _ => simp at hr

theorem C53_stays (s s' : St) (hs : Step s s') (hc : s.cancelled = true) : s'.cancelled = true := by
  cases hs <;> simp_all

/-- **C53**: at any time the callbacks invoked are the first ones of the handlers registered and not unregistered, in the order of registration, none twice;
when `Cancel` has returned true, they are all of them. -/
theorem C53_callbacks (s : St) (h : Reach s) (hu : s.ub = false) :
    s.invoked <+: live s.log ∧ s.invoked.Nodup ∧ (.cancel true ∈ s.rets → s.invoked = live s.log) := by
  have hI := inv_reach h hu
  have hp : s.invoked <+: live s.log := by
    cases hw : s.swapped with
    | false => rw [(hI.ns hw).1]; exact List.nil_prefix
    | true =>
      have h1 := hI.one
      rw [(hI.sw hw).1] at h1
      have h1 : sumBy (sumBy tok) s.stacks + trues s = 1 := h1
      by_cases ht : trues s = 0
      · obtain ⟨k, hk, hk'⟩ := sumBy_pos (sumBy tok) s.stacks (by omega)
        obtain ⟨f, hf, hf'⟩ := sumBy_pos tok k hk'
        obtain ⟨i, hi⟩ := List.getElem?_of_mem hk
        cases f with
        | cLock => exact absurd (hI.pre i k hi (.inl hf)) (by simp [hw])
        | cSwap => exact absurd (hI.pre i k hi (.inr hf)) (by simp [hw])
        | cLoop p => exact ⟨p, (hI.loop i k p hi hf).2⟩
        | _ => simp [tok] at hf'
      · have := (hI.done (List.count_pos_iff.1 (show 0 < trues s by omega))).2
        rw [this]; exact List.prefix_refl _
  exact ⟨hp, hI.nodup.sublist hp.sublist, fun hm => (hI.done hm).2⟩

/-- the call has decided that it returns true, and has not returned yet -/
def yesReg (h : Nat) : Frame → Nat
  | .regOut h' _ true => if h' = h then 1 else 0
  | _ => 0
def yesUnreg (h : Nat) : Frame → Nat
  | .unregOut h' true => if h' = h then 1 else 0
  | _ => 0
/-- number of calls of `Register h`, `Unregister h` that returned true -/
def retReg (h : Nat) : List Ret → Nat
  | [] => 0
  | .reg h' _ true :: l => (if h' = h then 1 else 0) + retReg h l
  | _ :: l => retReg h l
def retUnreg (h : Nat) : List Ret → Nat
  | [] => 0
  | .unreg h' true :: l => (if h' = h then 1 else 0) + retUnreg h l
  | _ :: l => retUnreg h l

set_option maxHeartbeats 1000000 in
/-- the events are the calls of `Register` and `Unregister` that return true -/
theorem C53_log (s : St) (h : Reach s) (hu : s.ub = false) (x : Nat) :
    s.log.count (.reg x) = retReg x s.rets + sumBy (sumBy (yesReg x)) s.stacks ∧
    s.log.count (.unreg x) = retUnreg x s.rets + sumBy (sumBy (yesUnreg x)) s.stacks := by
  induction h with
  | init s h =>
    obtain ⟨n, rfl⟩ := h
    have : ∀ f : Frame → Nat, sumBy (sumBy f) (List.replicate n []) = 0 := fun f =>
      (sumBy_eq_zero _ _).2 fun k hk => by rw [List.eq_of_mem_replicate hk]; rfl
    exact ⟨by rw [this]; rfl, by rw [this]; rfl⟩
  | step s s' hr hs ih =>
    have ih := ih (ub_mono hs hu)
    have hset : ∀ (f : Frame → Nat) (i : Nat) (k k' : List Frame), s.stacks[i]? = some k →
        sumBy (sumBy f) (s.stacks.set i k') + sumBy f k = sumBy (sumBy f) s.stacks + sumBy f k' := fun f i k k' hk => sumBy_set _ _ _ _ _ hk
    cases hs with
    | regUb i h late k l hk h1 => cases hu
    | regRet i h late r k hk =>
      have c1 := hset (yesReg x) i _ k hk
      have c2 := hset (yesUnreg x) i _ k hk
      cases r <;> simp only [sumBy_cons, yesReg, yesUnreg, retReg, retUnreg] at * <;> omega
    | unregRet i h r k hk =>
      have c1 := hset (yesReg x) i _ k hk
      have c2 := hset (yesUnreg x) i _ k hk
      cases r <;> simp only [sumBy_cons, yesReg, yesUnreg, retReg, retUnreg] at * <;> omega
    | regCheck i h late k hk =>
      cases hc : s.cancelled with
      | true =>
        have c1 := hset (yesReg x) i _ (.regOut h late false :: k) hk
        have c2 := hset (yesUnreg x) i _ (.regOut h late false :: k) hk
        simp only [sumBy_cons, yesReg, yesUnreg, retReg, retUnreg, if_true] at *; omega
      | false =>
        have c1 := hset (yesReg x) i _ (.regAdd h late :: k) hk
        have c2 := hset (yesUnreg x) i _ (.regAdd h late :: k) hk
        simp only [sumBy_cons, yesReg, yesUnreg, retReg, retUnreg] at *
        simp only [Bool.false_eq_true, if_false]; omega
    | regAdd i h late k hk hm =>
      have c1 := hset (yesReg x) i _ (.regOut h late true :: k) hk
      have c2 := hset (yesUnreg x) i _ (.regOut h late true :: k) hk
      have c3 : [Ev.reg h].count (.reg x) = if h = x then 1 else 0 := by by_cases e : h = x <;> simp [e]
      have c4 : [Ev.reg h].count (.unreg x) = 0 := by simp
      simp only [sumBy_cons, yesReg, yesUnreg, retReg, retUnreg, List.count_append] at *; omega
    | unregTake i h k hk hm =>
      have c1 := hset (yesReg x) i _ (.unregOut h true :: k) hk
      have c2 := hset (yesUnreg x) i _ (.unregOut h true :: k) hk
      have c3 : [Ev.unreg h].count (.unreg x) = if h = x then 1 else 0 := by by_cases e : h = x <;> simp [e]
      have c4 : [Ev.unreg h].count (.reg x) = 0 := by simp
      simp only [sumBy_cons, yesReg, yesUnreg, retReg, retUnreg, List.count_append] at *; omega
    | _ =>
      rename_i hk
      have c1 := fun k' => hset (yesReg x) _ _ k' (by first | assumption | exact hk)
      have c2 := fun k' => hset (yesUnreg x) _ _ k' (by first | assumption | exact hk)
      simp only [sumBy_cons, yesReg, yesUnreg, retReg, retUnreg] at *
      grind [sumBy_cons, yesReg, yesUnreg]

/-- **C53**: a call of `Register` that begins after cancellation was requested returns false -/
theorem C53_refused (s : St) (h : Reach s) (hu : s.ub = false) (x : Nat) : .reg x true true ∉ s.rets := (inv_reach h hu).ret x

/-- **C53**: after the callbacks were taken out, no registration and no unregistration succeeds -/
theorem C53_closed (s s' : St) (h : Reach s) (hs : Step s s') (hu : s'.ub = false) (hw : s.swapped = true) : s'.log = s.log := by
  have hI := inv_reach h (ub_mono hs hu)
  obtain ⟨_, h1, h2⟩ := hI.sw hw
  cases hs with
  | regAdd i h late k hk hm => exact absurd List.mem_cons_self (h2 i _ h late hk)
  | unregTake i h k hk hm => rw [h1] at hm; cases hm
  | _ => rfl

/-! ## Progress -/

/-- **C53 (partial)**: when one thread only uses the token, no call ever blocks: a call or callback under way can always take its next step.
Missing: several threads, see `C53_deadlock`. -/
theorem C53_progress_partial (s : St) (h : Reach s) (hone : s.stacks.length = 1) (f : Frame) (k : List Frame) (hk : s.stacks[0]? = some (f :: k)) :
    ∃ s', Step s s' ∧ s'.stacks[0]? ≠ s.stacks[0]? := by
  have hcs : s.stacks.length = 1 → s.cs.held = true → s.cs.owner = 1 := by
    clear hk hone
    induction h with
    | init s h => obtain ⟨n, rfl⟩ := h; intro _ h; cases h
    | step s s' _ hs ih =>
      have hL : ∀ (i : Nat) (cs : State) (x : List Frame), s.stacks.length = 1 → s.stacks[i]? = some x → lock s.cs (i + 1) = some cs → cs.owner = 1 := by
        intro i cs x h1 h2 h3
        have hi : i = 0 := by have := (List.getElem?_eq_some_iff.1 h2).1; omega
        subst hi
        unfold lock at h3
        split at h3
        · rename_i e; cases h3; exact e
        · split at h3
          · cases h3
          · cases h3; rfl
      have hU : (s.cs.held = true → s.cs.owner = 1) → (unlock s.cs).held = true → (unlock s.cs).owner = 1 := by
        intro h1 h2
        unfold unlock at h2 ⊢
        dsimp only at h2 ⊢
        split at h2
        · cases h2
        · rename_i e; rw [if_neg e]; exact h1 h2
      cases hs with
      | regLock i h late k cs hk hl => intro h1 _; exact hL i cs _ (by simpa using h1) hk hl
      | unregLock i h k cs hk hl => intro h1 _; exact hL i cs _ (by simpa using h1) hk hl
      | cLock i k cs hk hl => intro h1 _; exact hL i cs _ (by simpa using h1) hk hl
      | regRet i h late r k hk => intro h1 h2; exact hU (ih (by simpa using h1)) h2
      | unregRet i h r k hk => intro h1 h2; exact hU (ih (by simpa using h1)) h2
      | cEnd i k hk => intro h1 h2; exact hU (ih (by simpa using h1)) h2
      | _ => intro h1 h2; exact ih (by simpa using h1) h2
  have hlk : ∃ cs, lock s.cs (0 + 1) = some cs := by
    unfold lock
    by_cases e : s.cs.owner = 0 + 1
    · rw [if_pos e]; exact ⟨_, rfl⟩
    · rw [if_neg e]
      by_cases e' : s.cs.held = true
      · exact absurd (hcs hone e') e
      · rw [if_neg e']; exact ⟨_, rfl⟩
  have hne : ∀ x y : List Frame, s.stacks[0]? = some x → x ≠ y → (s.stacks.set 0 y)[0]? ≠ s.stacks[0]? := by
    intro x y hx hxy
    rw [set_get hx, hx]; exact fun e => hxy (by cases e; rfl)
  have hcons : ∀ (g : Frame) (l : List Frame), g :: l ≠ l := fun g l e => by simpa using congrArg List.length e
  obtain ⟨cs, hl⟩ := hlk
  cases f with
  | reg h late => exact ⟨_, .regLock s 0 h late k cs hk hl, hne _ _ hk (by simp)⟩
  | regIn h late => exact ⟨_, .regCheck s 0 h late k hk, hne _ _ hk (by cases s.cancelled <;> simp)⟩
  | regAdd h late =>
    by_cases hm : h ∈ s.list
    · by_cases h1 : s.list = [h]
      · exact ⟨_, .regUb s 0 h late k [] hk h1, hne _ _ hk (by simp)⟩
      · exact ⟨_, .regDup s 0 h late k hk hm h1, hne _ _ hk (by simp)⟩
    · exact ⟨_, .regAdd s 0 h late k hk hm, hne _ _ hk (by simp)⟩
  | regOut h late r => exact ⟨_, .regRet s 0 h late r k hk, hne _ _ hk (hcons _ _)⟩
  | unreg h => exact ⟨_, .unregLock s 0 h k cs hk hl, hne _ _ hk (by simp)⟩
  | unregIn h =>
    by_cases hm : h ∈ s.list
    · exact ⟨_, .unregTake s 0 h k hk hm, hne _ _ hk (by simp)⟩
    · exact ⟨_, .unregMiss s 0 h k hk hm, hne _ _ hk (by simp)⟩
  | unregOut h r => exact ⟨_, .unregRet s 0 h r k hk, hne _ _ hk (hcons _ _)⟩
  | cancel =>
    cases hc : s.cancelled with
    | true => exact ⟨_, .cancelNo s 0 k hk hc, hne _ _ hk (hcons _ _)⟩
    | false => exact ⟨_, .cancelYes s 0 k hk hc, hne _ _ hk (by simp)⟩
  | cLock => exact ⟨_, .cLock s 0 k cs hk hl, hne _ _ hk (by simp)⟩
  | cSwap => exact ⟨_, .cSwap s 0 k hk, hne _ _ hk (by simp)⟩
  | cLoop p =>
    cases p with
    | nil => exact ⟨_, .cEnd s 0 k hk, hne _ _ hk (hcons _ _)⟩
    | cons h p => exact ⟨_, .cPop s 0 h p k hk, hne _ _ hk (by simp)⟩
  | cb h => exact ⟨_, .cbRet s 0 h k hk, hne _ _ hk (hcons _ _)⟩

/-- the thread `c` waits in `Cancel` for the lock that `o` has acquired -/
def Stuck (o c : Nat) (s : St) : Prop := s.cs.held = true ∧ s.cs.owner = o + 1 ∧ o ≠ c ∧ s.stacks[c]? = some [.cLock]

theorem stuck_step {o c : Nat} {s s' : St} (hI : Inv s) (h : Stuck o c s) (hs : Step s s') (hu : s'.ub = false) : Stuck o c s' := by
  obtain ⟨h1, h2, h3, h4⟩ := h
  have hn := hI.pre c _ h4 (.inl List.mem_cons_self)
  obtain ⟨_, _, h5, h6⟩ := hI.ns hn
  have ho : ∃ k, s.stacks[o]? = some k ∧ s.cs.ref = (if k.any inl then 0 else -1) ∧ ∀ (i : Nat) (x : List Frame), i ≠ o → s.stacks[i]? = some x → x.any inl = false := by
    rcases h6 with ⟨e, _⟩ | ⟨o', e1, e2, e3, k, e4, e5⟩
    · rw [e] at h1; cases h1
    · have : o' = o := by omega
      subst this
      exact ⟨k, e4, e5, e3⟩
  obtain ⟨k0, ho1, ho2, ho3⟩ := ho
  have hL : ∀ (i : Nat) (cs : State) (x : List Frame), s.stacks[i]? = some x → lock s.cs (i + 1) = some cs → i = o ∧ cs.held = true ∧ cs.owner = o + 1 := by
    intro i cs x hx hl
    unfold lock at hl
    by_cases e : s.cs.owner = i + 1
    · rw [if_pos e] at hl; cases hl
      exact ⟨by omega, h1, h2⟩
    · rw [if_neg e, if_pos h1] at hl; cases hl
  have hU : ∀ (i : Nat) (f : Frame) (x : List Frame), s.stacks[i]? = some (f :: x) → inl f = true → i = o ∧ (unlock s.cs).held = true ∧ (unlock s.cs).owner = o + 1 := by
    intro i f x hx hf
    have e : i = o := by
      refine Classical.byContradiction fun e => ?_
      have := ho3 i _ e hx; simp [hf] at this
    subst e
    rw [ho1] at hx; cases hx
    have : s.cs.ref = 0 := by rw [ho2]; simp [hf]
    have hu : unlock s.cs = { s.cs with ref := -1 } := by simp only [unlock, this]; rfl
    rw [hu]; exact ⟨rfl, h1, h2⟩
  have hkeep : ∀ (i : Nat) (x y : List Frame), s.stacks[i]? = some x → x ≠ [.cLock] → (s.stacks.set i y)[c]? = some [.cLock] := by
    intro i x y hx hne
    have : i ≠ c := by rintro rfl; rw [h4] at hx; cases hx; exact hne rfl
    rw [List.getElem?_set_ne this, h4]
  have hfree : ∀ k : List Frame, Free k → k ≠ [.cLock] := fun k hf e => by rw [e] at hf; exact hf
  cases hs with
  | callReg i h k hk hf => exact ⟨h1, h2, h3, hkeep i _ _ hk (hfree k hf)⟩
  | callUnreg i h k hk hf => exact ⟨h1, h2, h3, hkeep i _ _ hk (hfree k hf)⟩
  | callCancel i k hk hf => exact ⟨h1, h2, h3, hkeep i _ _ hk (hfree k hf)⟩
  | regLock i h late k cs hk hl => obtain ⟨_, a, b⟩ := hL i cs _ hk hl; exact ⟨a, b, h3, hkeep i _ _ hk (by simp)⟩
  | regCheck i h late k hk => exact ⟨h1, h2, h3, hkeep i _ _ hk (by simp)⟩
  | regDup i h late k hk hm h1' => exact ⟨h1, h2, h3, hkeep i _ _ hk (by simp)⟩
  | regUb i h late k l hk h1' => cases hu
  | regAdd i h late k hk hm => exact ⟨h1, h2, h3, hkeep i _ _ hk (by simp)⟩
  | regRet i h late r k hk => obtain ⟨_, a, b⟩ := hU i _ _ hk rfl; exact ⟨a, b, h3, hkeep i _ _ hk (by simp)⟩
  | unregLock i h k cs hk hl => obtain ⟨_, a, b⟩ := hL i cs _ hk hl; exact ⟨a, b, h3, hkeep i _ _ hk (by simp)⟩
  | unregTake i h k hk hm => exact ⟨h1, h2, h3, hkeep i _ _ hk (by simp)⟩
  | unregMiss i h k hk hm => exact ⟨h1, h2, h3, hkeep i _ _ hk (by simp)⟩
  | unregRet i h r k hk => obtain ⟨_, a, b⟩ := hU i _ _ hk rfl; exact ⟨a, b, h3, hkeep i _ _ hk (by simp)⟩
  | cancelNo i k hk hc => exact ⟨h1, h2, h3, hkeep i _ _ hk (by simp)⟩
  | cancelYes i k hk hc => exact ⟨h1, h2, h3, hkeep i _ _ hk (by simp)⟩
  | cLock i k cs hk hl =>
    obtain ⟨rfl, a, b⟩ := hL i cs _ hk hl
    refine ⟨a, b, h3, ?_⟩
    rw [List.getElem?_set_ne h3, h4]
  | cSwap i k hk => exact ⟨h1, h2, h3, hkeep i _ _ hk (by simp)⟩
  | cPop i h p k hk => exact ⟨h1, h2, h3, hkeep i _ _ hk (by simp)⟩
  | cbRet i h k hk => exact ⟨h1, h2, h3, hkeep i _ _ hk (by simp)⟩
  | cEnd i k hk => obtain ⟨_, a, b⟩ := hU i _ _ hk rfl; exact ⟨a, b, h3, hkeep i _ _ hk (by simp)⟩

/-- **C53 fails**: when `Cancel` is called from another thread than the one that first called `Register` or `Unregister`, it waits for ever:
whatever happens afterwards, it has not returned and no callback was invoked. -/
theorem C53_deadlock (o c : Nat) (s : St) (h : Reach s) (hst : Stuck o c s) (s' : St) (hs : Steps s s') (hu : s'.ub = false) :
    s'.stacks[c]? = some [.cLock] ∧ s'.invoked = [] ∧ .cancel true ∉ s'.rets := by
  have key : s'.ub = false → Reach s' ∧ Stuck o c s' := by
    induction hs with
    | refl => exact fun _ => ⟨h, hst⟩
    | step t t' _ hs ih =>
      intro hu
      have hu0 := ub_mono hs hu
      obtain ⟨a, b⟩ := ih hu0 hu0
      exact ⟨.step _ _ a hs, stuck_step (inv_reach a hu0) b hs hu⟩
  obtain ⟨a, b⟩ := key hu
  have hI := inv_reach a hu
  have hn := hI.pre c _ b.2.2.2 (.inl List.mem_cons_self)
  exact ⟨b.2.2.2, (hI.ns hn).1, fun hm => by have := (hI.done hm).1; rw [hn] at this; cases this⟩

/-- the ordinary situation: one thread registers a callback, another cancels -/
theorem C53_deadlock_case : ∃ s, Reach s ∧ s.ub = false ∧ s.rets = [.reg 7 false true] ∧ Stuck 0 1 s := by
  have r0 : Reach { stacks := [[], []] } := .init _ ⟨2, rfl⟩
  have r1 := Reach.step _ _ r0 (.callReg _ 0 7 _ rfl trivial)
  have r2 := Reach.step _ _ r1 (.regLock _ 0 7 _ _ _ rfl rfl)
  have r3 := Reach.step _ _ r2 (.regCheck _ 0 7 _ _ rfl)
  have r4 := Reach.step _ _ r3 (.regAdd _ 0 7 _ _ rfl (by simp))
  have r5 := Reach.step _ _ r4 (.regRet _ 0 7 _ _ _ rfl)
  have r6 := Reach.step _ _ r5 (.callCancel _ 1 _ rfl trivial)
  have r7 := Reach.step _ _ r6 (.cancelYes _ 1 _ rfl rfl)
  exact ⟨_, r7, rfl, rfl, rfl, rfl, by omega, rfl⟩

/-- **C53 fails**: if a callback calls `Unregister` (or `Register`), the lock is released while `Cancel` still walks its list: another thread enters -/
theorem C53_exclusion_fails : ∃ s, Reach s ∧ s.ub = false ∧ s.stacks = [[.cb 7, .cLoop [8]], [.unregIn 8]] := by
  have r0 : Reach { stacks := [[], []] } := .init _ ⟨2, rfl⟩
  have r1 := Reach.step _ _ r0 (.callReg _ 0 7 _ rfl trivial)
  have r2 := Reach.step _ _ r1 (.regLock _ 0 7 _ _ _ rfl rfl)
  have r3 := Reach.step _ _ r2 (.regCheck _ 0 7 _ _ rfl)
  have r4 := Reach.step _ _ r3 (.regAdd _ 0 7 _ _ rfl (by simp))
  have r5 := Reach.step _ _ r4 (.regRet _ 0 7 _ _ _ rfl)
  have q1 := Reach.step _ _ r5 (.callReg _ 0 8 _ rfl trivial)
  have q2 := Reach.step _ _ q1 (.regLock _ 0 8 _ _ _ rfl rfl)
  have q3 := Reach.step _ _ q2 (.regCheck _ 0 8 _ _ rfl)
  have q4 := Reach.step _ _ q3 (.regAdd _ 0 8 _ _ rfl (by simp))
  have q5 := Reach.step _ _ q4 (.regRet _ 0 8 _ _ _ rfl)
  have r6 := Reach.step _ _ q5 (.callCancel _ 0 _ rfl trivial)
  have r7 := Reach.step _ _ r6 (.cancelYes _ 0 _ rfl rfl)
  have r8 := Reach.step _ _ r7 (.cLock _ 0 _ _ rfl rfl)
  have r9 := Reach.step _ _ r8 (.cSwap _ 0 _ rfl)
  have r10 := Reach.step _ _ r9 (.cPop _ 0 7 _ _ rfl)
  have r11 := Reach.step _ _ r10 (.callUnreg _ 0 8 _ rfl trivial)
  have r12 := Reach.step _ _ r11 (.unregLock _ 0 8 _ _ rfl rfl)
  have r13 := Reach.step _ _ r12 (.unregMiss _ 0 8 _ rfl (by simp))
  have r14 := Reach.step _ _ r13 (.unregRet _ 0 8 _ _ rfl)
  have r15 := Reach.step _ _ r14 (.callUnreg _ 1 8 _ rfl trivial)
  have r16 := Reach.step _ _ r15 (.unregLock _ 1 8 _ _ rfl rfl)
  exact ⟨_, r16, rfl, rfl⟩

/-- **C53 fails**: the only handler registered twice is accepted twice and called twice (the delegate as it is written, `Verif.Delegate`: 0 is `oCallbacks`, 1 the
local list of `Cancel`) -/
theorem C53_twice_fails : ∃ w, Delegate.run {} [.add 0 (some 7), .add 0 (some 7), .append 1 0, .invoke 1 10] =
    some (w, [(true, []), (true, []), (true, []), (true, [7, 7])]) := ⟨_, rfl⟩

/-- an ordinary history on one thread: 7, 8 and 9 are registered, 8 is unregistered, the token is cancelled; the callback of 7 tries to register 5 -/
theorem C53_case : ∃ s, Reach s ∧ s.ub = false ∧ s.stacks = [[]] ∧ s.invoked = [7, 9] ∧
    s.rets = [.cancel true, .reg 5 true false, .unreg 8 true, .reg 9 false true, .reg 8 false true, .reg 7 false true] := by
  have r0 : Reach { stacks := [[]] } := .init _ ⟨1, rfl⟩
  have r1 := Reach.step _ _ r0 (.callReg _ 0 7 _ rfl trivial)
  have r2 := Reach.step _ _ r1 (.regLock _ 0 7 _ _ _ rfl rfl)
  have r3 := Reach.step _ _ r2 (.regCheck _ 0 7 _ _ rfl)
  have r4 := Reach.step _ _ r3 (.regAdd _ 0 7 _ _ rfl (by simp))
  have r5 := Reach.step _ _ r4 (.regRet _ 0 7 _ _ _ rfl)
  have q1 := Reach.step _ _ r5 (.callReg _ 0 8 _ rfl trivial)
  have q2 := Reach.step _ _ q1 (.regLock _ 0 8 _ _ _ rfl rfl)
  have q3 := Reach.step _ _ q2 (.regCheck _ 0 8 _ _ rfl)
  have q4 := Reach.step _ _ q3 (.regAdd _ 0 8 _ _ rfl (by simp))
  have q5 := Reach.step _ _ q4 (.regRet _ 0 8 _ _ _ rfl)
  have p1 := Reach.step _ _ q5 (.callReg _ 0 9 _ rfl trivial)
  have p2 := Reach.step _ _ p1 (.regLock _ 0 9 _ _ _ rfl rfl)
  have p3 := Reach.step _ _ p2 (.regCheck _ 0 9 _ _ rfl)
  have p4 := Reach.step _ _ p3 (.regAdd _ 0 9 _ _ rfl (by simp))
  have p5 := Reach.step _ _ p4 (.regRet _ 0 9 _ _ _ rfl)
  have u1 := Reach.step _ _ p5 (.callUnreg _ 0 8 _ rfl trivial)
  have u2 := Reach.step _ _ u1 (.unregLock _ 0 8 _ _ rfl rfl)
  have u3 := Reach.step _ _ u2 (.unregTake _ 0 8 _ rfl (by simp))
  have u4 := Reach.step _ _ u3 (.unregRet _ 0 8 _ _ rfl)
  have r6 := Reach.step _ _ u4 (.callCancel _ 0 _ rfl trivial)
  have r7 := Reach.step _ _ r6 (.cancelYes _ 0 _ rfl rfl)
  have r8 := Reach.step _ _ r7 (.cLock _ 0 _ _ rfl rfl)
  have r9 := Reach.step _ _ r8 (.cSwap _ 0 _ rfl)
  have r10 := Reach.step _ _ r9 (.cPop _ 0 7 [9] _ rfl)
  have v1 := Reach.step _ _ r10 (.callReg _ 0 5 _ rfl trivial)
  have v2 := Reach.step _ _ v1 (.regLock _ 0 5 _ _ _ rfl rfl)
  have v3 := Reach.step _ _ v2 (.regCheck _ 0 5 _ _ rfl)
  have v4 := Reach.step _ _ v3 (.regRet _ 0 5 _ _ _ rfl)
  have r11 := Reach.step _ _ v4 (.cbRet _ 0 7 _ rfl)
  have r12 := Reach.step _ _ r11 (.cPop _ 0 9 [] _ rfl)
  have r13 := Reach.step _ _ r12 (.cbRet _ 0 9 _ rfl)
  have r14 := Reach.step _ _ r13 (.cEnd _ 0 _ rfl)
  exact ⟨_, r14, rfl, rfl, rfl, rfl⟩

#print axioms C53_once
#print axioms C53_false
#print axioms C53_callbacks
#print axioms C53_log
#print axioms C53_refused
#print axioms C53_closed
#print axioms C53_progress_partial
#print axioms C53_deadlock
#print axioms C53_deadlock_case
#print axioms C53_exclusion_fails
#print axioms C53_twice_fails
#print axioms C53_case

end Verif.Cancel
