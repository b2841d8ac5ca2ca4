import Verif.Sequenced.Props
set_option linter.unusedVariables false
/-!
# C48: stop and `Join` of the sequenced task runner
-/
namespace Verif.Sequenced
open Verif.Common

/-! ## Stopped runners accept nothing -/

/-- tasks accepted so far: those that have entered the queue and those whose post has succeeded in raising the counter and is about to put them there -/
def accepted (s : St) : Nat := s.pushed.length + sumBy isPushing s.threads

theorem stopped_sub {s : St} (hst : s.word.stop = true) {i : Nat} (h : s.threads[i]? = some .exSub) (c : Nat) (b : Bool) :
    ({ s with word := { s.word with cnt := c }, threads := s.threads.set i (if b then .exExit else .exCheck) } : St).word.stop = true ∧
    accepted { s with word := { s.word with cnt := c }, threads := s.threads.set i (if b then .exExit else .exCheck) } = accepted s := by
  refine ⟨hst, ?_⟩
  obtain ⟨-, -, -, u4, -, -, -⟩ := sums_of h (if b then .exExit else .exCheck)
  have : isPushing (if b then PC.exExit else .exCheck) = 0 := by cases b <;> rfl
  rw [this, show isPushing .exSub = 0 from rfl] at u4
  unfold accepted; dsimp only; omega

theorem stopped_step {s s' : St} (hst : s.word.stop = true) (hs : Step false s s') : s'.word.stop = true ∧ accepted s' = accepted s := by
  have key : ∀ {i : Nat} {p : PC} (q : PC), s.threads[i]? = some p → isPushing p = isPushing q → s.pushed.length + sumBy isPushing (s.threads.set i q) = accepted s := by
    intro i p q h e
    obtain ⟨-, -, -, u4, -, -, -⟩ := sums_of h q
    unfold accepted; omega
  cases hs with
  | post i t h => exact ⟨hst, key _ h rfl⟩
  | refuse i t f h hf => exact ⟨hst, key _ h rfl⟩
  | reload i t f h hf hl => exact ⟨hst, key _ h rfl⟩
  | casFail i t f h hf hl hw => exact ⟨hst, key _ h rfl⟩
  | casOk i t f h hf hl hw hb => rw [hw, hf] at hst; cases hst
  | push i t b h =>
    refine ⟨hst, ?_⟩
    obtain ⟨-, -, -, u4, -, -, -⟩ := sums_of h (.unlocking b)
    unfold accepted
    simp only [isPushing] at u4
    simp; omega
  | unlock i b h => exact ⟨hst, key _ h (by cases b <;> rfl)⟩
  | schedule i h => exact ⟨hst, key _ h rfl⟩
  | scheduleFail i h => exact ⟨rfl, key _ h rfl⟩
  | join => exact ⟨rfl, rfl⟩
  | interrupt => exact ⟨rfl, rfl⟩
  | unshare => exact ⟨hst, rfl⟩
  | exStart i h hp => exact ⟨hst, key _ h rfl⟩
  | exCheck i h => exact ⟨hst, key _ h rfl⟩
  | exUnshared i h hs => exact ⟨hst, key _ h rfl⟩
  | exPop i t q h hq hc => exact ⟨hst, key _ h rfl⟩
  | exPopNone i h hq hc => exact ⟨hst, key _ h rfl⟩
  | exStartTask i t h => exact ⟨hst, key _ h rfl⟩
  | exEndTask i t h => exact ⟨hst, key _ h rfl⟩
  | exSub i h => exact stopped_sub hst h _ _
  | exLeave i h => exact ⟨hst, key _ h rfl⟩
  | exCleanup i h hc => exact ⟨hst, key _ h rfl⟩
  | cleanPop i t q h hq => exact ⟨hst, rfl⟩
  | cleanEnd i h hq => exact ⟨rfl, key _ h rfl⟩

/-- C48, first half: once a runner is stopped (`Join`, `Interrupt`, or the thread pool refused it), it stays stopped and accepts no task any more, whatever happens —
even from posts that began before. -/
theorem C48_rejected (s s' : St) (hst : s.word.stop = true) (h : ReachFrom false s s') : s'.word.stop = true ∧ accepted s' = accepted s := by
  induction h with
  | refl => exact ⟨hst, rfl⟩
  | step a b _ hs ih =>
    obtain ⟨h1, h2⟩ := stopped_step ih.1 hs
    exact ⟨h1, h2.trans ih.2⟩

/-- `Join` and `Interrupt` stop the runner -/
theorem C48_stops (s : St) : ∃ s1 s2, Step false s s1 ∧ s1.word.stop = true ∧ s1 = { s with word := { s.word with stop := true } } ∧
    Step false s s2 ∧ s2.word.stop = true ∧ s2.word.intr = true := ⟨_, _, .join s, rfl, rfl, .interrupt s, rfl, rfl⟩

/-! ## `Join` -/

/-- `Join` returns `S_OK` (.cpp 40-53): `s` is the state at the deciding access of the word, `s'` the state after it.  Either the `BitOr` finds the counter 0 (41-44), or the later wait
(46-53) sees the value `TerminateTaskRunnerRaw`. -/
inductive JoinOk : St → St → Prop
  | now (s : St) (h : s.word.raw < 8) : JoinOk s { s with word := { s.word with stop := true } }
  | waited (s : St) (h : s.word.raw = terminate.raw) : JoinOk s s

/-- an accepted task has not been finished: it is in the queue, about to be put there, popped or running -/
def Unfinished (s : St) : Prop := s.queue ≠ [] ∨ ∃ p ∈ s.threads, ∃ t, (∃ b, p = .pushing t b) ∨ p = .exTask t ∨ p = .exRunning t

/-- a step that is not a call of `Interrupt`, not a refusal by the thread pool, and not the loss of the last user reference: the interrupt bit is only set by the final `Exchange` of
`CleanupTaskQueue` (167) -/
def Orderly (s s' : St) : Prop := Step false s s' ∧ (s'.word.intr = true → s.word.intr = true ∨ ∃ i : Nat, s.threads[i]? = some .cleanup) ∧
  (∀ i : Nat, s.threads[i]? = some .schedule → s'.threads[i]? ≠ some .cleanup) ∧ s'.shared = true

inductive OReach : St → Prop
  | init (s : St) (h : Init s) : OReach s
  | step (s s' : St) (h : OReach s) (hs : Orderly s s') : OReach s'

inductive OReachFrom (s₀ : St) : St → Prop
  | refl : OReachFrom s₀ s₀
  | step (s s' : St) (h : OReachFrom s₀ s) (hs : Orderly s s') : OReachFrom s₀ s'

def isCl : PC → Nat
  | .cleanup => 1
  | _ => 0

structure InvJ (s : St) : Prop where
  cnt : s.word.cnt = s.queue.length + sumBy isPushing s.threads + sumBy inHand s.threads
  lt : s.word.cnt < cntMod
  sh : s.shared = true
  intr : s.word.intr = true → s.word.cnt = 0 ∧ s.word.stop = true
  cl : 0 < sumBy isCl s.threads → s.word.cnt = 0 ∧ s.word.stop = true

theorem invJ_init {s} (h : Init s) : InvJ s := by
  obtain ⟨n, rfl⟩ := h
  have e := fun f h => sumBy_replicate (α := PC) f .idle h n
  refine ⟨by simp [e isPushing rfl, e inHand rfl], (show 0 < cntMod by unfold cntMod; decide), rfl, by simp, by simp [e isCl rfl]⟩

/-- moves that leave the counter alone -/
theorem invJ_move {s s' : St} (hJ : InvJ s) {i : Nat} {p q : PC} (h : s.threads[i]? = some p) (hs : s'.threads = s.threads.set i q)
    (hw : s'.word.cnt = s.word.cnt) (hst : s.word.stop = true → s'.word.stop = true) (hsh : s'.shared = s.shared) (hi : s'.word.intr = s.word.intr)
    (hq : s'.queue.length + isPushing q + inHand q = s.queue.length + isPushing p + inHand p)
    (hcl : isCl q = 1 → isCl p = 1 ∨ (s.word.cnt = 0 ∧ s.word.stop = true)) : InvJ s' := by
  obtain ⟨-, -, -, u4, u5, -, -, -⟩ := sums_of h q
  have u6 := sumBy_set isCl _ _ q _ h
  have l6 := le_sumBy isCl _ _ _ h
  rw [← hs] at u4 u5 u6
  have hq1 : isCl q ≤ 1 := by cases q <;> simp [isCl]
  obtain ⟨c1, c2, c3, c4, c5⟩ := hJ
  refine ⟨by omega, by omega, by rw [hsh]; exact c3, ?_, ?_⟩
  · rw [hi, hw]; intro h; exact ⟨(c4 h).1, hst (c4 h).2⟩
  · intro h0
    rw [hw]
    by_cases e : isCl q = 1
    · rcases hcl e with e' | e'
      · have := c5 (by omega); exact ⟨this.1, hst this.2⟩
      · exact ⟨e'.1, hst e'.2⟩
    · have := c5 (by omega); exact ⟨this.1, hst this.2⟩

theorem invJ_step {s s'} (hJ : InvJ s) (ho : Orderly s s') : InvJ s' := by
  obtain ⟨hs, hno, hnf, hsh⟩ := ho
  have ⟨c1, c2, c3, c4, c5⟩ := hJ
  cases hs with
  | post i t h => exact invJ_move hJ h rfl rfl id rfl rfl rfl (fun h => by cases h)
  | refuse i t f h hf => exact invJ_move hJ h rfl rfl id rfl rfl rfl (fun h => by cases h)
  | reload i t f h hf hl => exact invJ_move hJ h rfl rfl id rfl rfl rfl (fun h => by cases h)
  | casFail i t f h hf hl hw => exact invJ_move hJ h rfl rfl id rfl rfl rfl (fun h => by cases h)
  | casOk i t f h hf hl hw hb =>
    subst hw
    obtain ⟨-, -, -, u4, u5, -, -, -⟩ := sums_of h (.pushing t (decide (s.word.cnt = 0)))
    have u6 := sumBy_set isCl _ _ (.pushing t (decide (s.word.cnt = 0))) _ h
    simp only [isPushing, inHand, isCl] at u4 u5 u6
    refine ⟨?_, hb, c3, ?_, ?_⟩
    · show s.word.cnt + 1 = _ ; dsimp only; omega
    · intro h; have := (c4 h).2; rw [hf] at this; cases this
    · intro h; have := (c5 (by dsimp only at h; omega)).2; rw [hf] at this; cases this
  | push i t b h => exact invJ_move hJ h rfl rfl id rfl rfl (by simp [isPushing, inHand]) (fun h => by cases h)
  | unlock i b h => exact invJ_move (q := if b then .schedule else .idle) hJ h rfl rfl id rfl rfl (by cases b <;> rfl) (fun h => by cases b <;> cases h)
  | schedule i h => exact invJ_move hJ h rfl rfl id rfl rfl rfl (fun h => by cases h)
  | scheduleFail i h =>
    refine absurd ?_ (hnf i h)
    have hi : i < s.threads.length := (List.getElem?_eq_some_iff.1 h).1
    simp [hi]
  | join => exact ⟨c1, c2, c3, fun h => ⟨(c4 h).1, rfl⟩, fun h => ⟨(c5 h).1, rfl⟩⟩
  | interrupt =>
    have : s.word.cnt = 0 := by
      rcases hno rfl with h | ⟨i, h⟩
      · exact (c4 h).1
      · have := le_sumBy isCl _ _ _ h
        exact (c5 this).1
    exact ⟨c1, c2, c3, fun _ => ⟨this, rfl⟩, fun _ => ⟨this, rfl⟩⟩
  | unshare => cases hsh
  | exStart i h hp => exact invJ_move hJ h rfl rfl id rfl rfl rfl (fun h => by cases h)
  | exCheck i h => exact invJ_move hJ h rfl rfl id rfl rfl rfl (fun h => by cases h)
  | exUnshared i h hs => rw [c3] at hs; cases hs
  | exPop i t q h hq hc => exact invJ_move hJ h rfl rfl id rfl rfl (by simp [hq, isPushing, inHand]) (fun h => by cases h)
  | exPopNone i h hq hc => exact invJ_move hJ h rfl rfl id rfl rfl rfl (fun h => by cases h)
  | exStartTask i t h => exact invJ_move hJ h rfl rfl id rfl rfl rfl (fun h => by cases h)
  | exEndTask i t h => exact invJ_move hJ h rfl rfl id rfl rfl rfl (fun h => by cases h)
  | exSub i h =>
    have l := le_sumBy inHand _ _ _ h
    simp only [inHand] at l
    have e : (s.word.cnt + cntMod - 1) % cntMod = s.word.cnt - 1 := by
      rw [show s.word.cnt + cntMod - 1 = (s.word.cnt - 1) + cntMod by omega, Nat.add_mod_right, Nat.mod_eq_of_lt (by omega)]
    have hq : ∀ q : PC, q = .exExit ∨ q = .exCheck → InvJ { s with word := { s.word with cnt := s.word.cnt - 1 }, threads := s.threads.set i q } := by
      intro q hq
      obtain ⟨-, -, -, u4, u5, -, -, -⟩ := sums_of h q
      have u6 := sumBy_set isCl _ _ q _ h
      have e1 : isPushing q = 0 ∧ inHand q = 0 ∧ isCl q = 0 := by rcases hq with rfl | rfl <;> exact ⟨rfl, rfl, rfl⟩
      rw [e1.1, show isPushing .exSub = 0 from rfl] at u4
      rw [e1.2.1, show inHand .exSub = 1 from rfl] at u5
      rw [e1.2.2, show isCl .exSub = 0 from rfl] at u6
      refine ⟨by dsimp only; omega, by dsimp only; omega, c3, ?_, ?_⟩
      · intro h; have := c4 h; exact ⟨by dsimp only; omega, this.2⟩
      · intro h; have := c5 (by dsimp only at h; omega); exact ⟨by dsimp only; omega, this.2⟩
    have hb : ∀ (c : Nat) (b : Bool), c = s.word.cnt - 1 → InvJ { s with word := { s.word with cnt := c }, threads := s.threads.set i (if b then .exExit else .exCheck) } := by
      intro c b hc
      rw [hc]
      refine hq _ ?_
      cases b
      · exact .inr rfl
      · exact .inl rfl
    exact hb _ _ e
  | exLeave i h => exact invJ_move hJ h rfl rfl id rfl rfl rfl (fun h => by cases h)
  | exCleanup i h hc =>
    refine invJ_move hJ h rfl rfl id rfl rfl rfl (fun _ => .inr ?_)
    rcases hc with h | h | h
    · rw [c3] at h; cases h
    · exact c4 h
    · exact ⟨h.2, h.1⟩
  | cleanPop i t q h hq =>
    have := (c5 (Nat.lt_of_lt_of_le (by decide) (le_sumBy isCl _ _ _ h))).1
    rw [hq] at c1; simp only [List.length_cons] at c1; omega
  | cleanEnd i h hq =>
    have h0 := (c5 (Nat.lt_of_lt_of_le (by decide) (le_sumBy isCl _ _ _ h))).1
    have j1 : InvJ { s with word := { s.word with stop := true }, threads := s.threads.set i .idle } :=
      invJ_move hJ h rfl rfl (fun _ => rfl) rfl rfl rfl (fun h => by cases h)
    refine ⟨?_, (show 0 < cntMod by unfold cntMod; decide), c3, fun _ => ⟨rfl, rfl⟩, fun _ => ⟨rfl, rfl⟩⟩
    have := j1.cnt
    dsimp only at this ⊢
    rw [h0] at this
    exact this

theorem invJ_reach {s} (h : OReach s) : InvJ s := by
  induction h with
  | init s h => exact invJ_init h
  | step s s' _ hs ih => exact invJ_step ih hs

theorem finished_of {s : St} (c : s.word.cnt = s.queue.length + sumBy isPushing s.threads + sumBy inHand s.threads) (h : s.word.cnt = 0) : ¬ Unfinished s := by
  have hq : s.queue = [] := List.eq_nil_of_length_eq_zero (by omega)
  rintro (h | ⟨p, hp, t, ⟨b, rfl⟩ | rfl | rfl⟩)
  · exact h hq
  · have := le_sumBy_of_mem isPushing _ _ hp; simp only [isPushing] at this; omega
  · have := le_sumBy_of_mem inHand _ _ hp; simp only [inHand] at this; omega
  · have := le_sumBy_of_mem inHand _ _ hp; simp only [inHand] at this; omega

theorem JoinOk.stop {s s' : St} (h : JoinOk s s') : s'.word.stop = true ∧ s.word.cnt = 0 ∧ s'.queue = s.queue ∧ s'.threads = s.threads ∧ s'.word.cnt = s.word.cnt := by
  cases h with
  | now h => exact ⟨rfl, (raw_lt _).1 h, rfl, rfl, rfl⟩
  | waited h => have := (raw_inj _ _).1 h; rw [this]; exact ⟨rfl, rfl, rfl, rfl, rfl⟩

/-- C48, second half, for histories without `Interrupt` (and without a refusal by the thread pool or the loss of the last reference, after which nobody can call `Join`): when `Join`
returns success no accepted task is queued or running. Missing: histories with `Interrupt` (`C48_join_queued_fails`, `C48_join_running_fails`). -/
theorem C48_join_partial (s s' : St) (h : OReach s) (hj : JoinOk s s') : ¬ Unfinished s' := by
  obtain ⟨_, h0, hq, ht, hc⟩ := hj.stop
  refine finished_of ?_ (by rw [hc]; exact h0)
  rw [hc, hq, ht]; exact (invJ_reach h).cnt

theorem stopped_unfinished {s s' : St} (hJ : InvJ s) (h0 : s.word.cnt = 0) (hst : s.word.stop = true) (ho : Orderly s s') : s'.word.cnt = 0 := by
  have hn := finished_of hJ.cnt h0
  have hJ' := invJ_step hJ ho
  have a := (stopped_step hst ho.1).2
  obtain ⟨hs, _, _, hsh⟩ := ho
  cases hs with
  | casOk i t f h hf hl hw hb => rw [hw, hf] at hst; cases hst
  | exSub i h => have := le_sumBy inHand _ _ _ h; simp only [inHand] at this; have := hJ.cnt; omega
  | cleanEnd i h hq => rfl
  | _ => exact h0

/-- … and none will ever be again (in such histories) -/
theorem C48_join_final_partial (s s' s'' : St) (h : OReach s) (hj : JoinOk s s') (ho : OReachFrom s' s'') : ¬ Unfinished s'' := by
  obtain ⟨h1, h0, hq, ht, hc⟩ := hj.stop
  have hJ : InvJ s' := by
    have hJ := invJ_reach h
    cases hj with
    | now h =>
      refine invJ_step hJ ⟨.join s, fun h => .inl h, fun i h1 h2 => ?_, hJ.sh⟩
      have h2 : s.threads[i]? = _ := h2
      rw [h1] at h2; cases h2
    | waited h => exact hJ
  have : InvJ s'' ∧ s''.word.cnt = 0 ∧ s''.word.stop = true := by
    induction ho with
    | refl => exact ⟨hJ, by rw [hc]; exact h0, h1⟩
    | step a b _ hs ih => exact ⟨invJ_step ih.1 hs, stopped_unfinished ih.1 ih.2.1 ih.2.2 hs, (stopped_step ih.2.2 hs.1).1⟩
  exact finished_of this.1.cnt this.2.1

/-! ## Counterexamples and a case -/

/-- C48 fails with `Interrupt`: task 1 has been run and its executor is about to look at the flags (115); task 2 is accepted (its post has raised the counter), `Interrupt` is called, the executor
cleans up and publishes `TerminateTaskRunnerRaw`, `Join` returns success, then the post pushes task 2: it stays in the queue of a terminated runner, neither run nor cancelled. -/
theorem C48_join_queued_fails : ∃ s s' s'', Reach false s ∧ JoinOk s s' ∧ Unfinished s' ∧ ReachFrom false s' s'' ∧ s''.queue = [2] ∧ s''.started = [1] ∧
    (∀ p ∈ s''.threads, p = .idle) ∧ s''.pool = 0 := by
  have hm : cntMod = 536870912 := by unfold cntMod; rfl
  have r0 : Reach false { threads := [.idle, .idle] } := .init _ ⟨2, rfl⟩
  have r1 := Reach.step _ _ r0 (.post _ 0 1 rfl)
  have r2 := Reach.step _ _ r1 (.casOk _ 0 1 {} rfl rfl rfl rfl (by rw [hm]; decide))
  have r3 := Reach.step _ _ r2 (.push _ 0 1 true rfl)
  have r4 := Reach.step _ _ r3 (.unlock _ 0 true rfl)
  have r5 := Reach.step _ _ r4 (.schedule _ 0 rfl)
  have r6 := Reach.step _ _ r5 (.exStart _ 1 rfl (by simp))
  have r7 := Reach.step _ _ r6 (.exCheck _ 1 rfl)
  have r8 := Reach.step _ _ r7 (.exPop _ 1 1 [] rfl rfl (by simp))
  have r9 := Reach.step _ _ r8 (.exStartTask _ 1 1 rfl)
  have r10 := Reach.step _ _ r9 (.exEndTask _ 1 1 rfl)
  have r11 := Reach.step _ _ r10 (.post _ 0 2 rfl)
  have r12 := Reach.step _ _ r11 (.casOk _ 0 2 { cnt := 1 } rfl rfl rfl rfl (by rw [hm]; decide))
  have r13 := Reach.step _ _ r12 (.exSub _ 1 rfl)
  simp only [hm, Nat.reduceAdd, Nat.reduceSub, Nat.reduceMod, List.set_cons_succ, List.set_cons_zero, Nat.one_ne_zero, if_false] at r13
  have r14 := Reach.step _ _ r13 (.interrupt _)
  have r15 := Reach.step _ _ r14 (.exCheck _ 1 rfl)
  have r16 := Reach.step _ _ r15 (.exPopNone _ 1 rfl rfl (by simp))
  have r17 := Reach.step _ _ r16 (.exCleanup _ 1 rfl (.inr (.inl rfl)))
  have r18 := Reach.step _ _ r17 (.cleanEnd _ 1 rfl rfl)
  refine ⟨_, _, _, r18, .waited _ rfl, .inr ⟨.pushing 2 false, by simp, 2, .inl ⟨false, rfl⟩⟩,
    .step _ _ (.step _ _ .refl (.push _ 0 2 false rfl)) (.unlock _ 0 false rfl), rfl, rfl, by simp, rfl⟩

/-- C48 fails with `Interrupt`: executor A has finished task 1 (the counter is 0) and is about to look at the flags (115); task 2 is posted and executor B runs it; `Interrupt` is called; A now sees
the interrupt bit, cleans up and publishes `TerminateTaskRunnerRaw`; `Join` returns success although B is still running task 2. -/
theorem C48_join_running_fails : ∃ s s', Reach false s ∧ JoinOk s s' ∧ PC.exRunning 2 ∈ s'.threads := by
  have hm : cntMod = 536870912 := by unfold cntMod; rfl
  have r0 : Reach false { threads := [.idle, .idle, .idle] } := .init _ ⟨3, rfl⟩
  have r1 := Reach.step _ _ r0 (.post _ 0 1 rfl)
  have r2 := Reach.step _ _ r1 (.casOk _ 0 1 {} rfl rfl rfl rfl (by rw [hm]; decide))
  have r3 := Reach.step _ _ r2 (.push _ 0 1 true rfl)
  have r4 := Reach.step _ _ r3 (.unlock _ 0 true rfl)
  have r5 := Reach.step _ _ r4 (.schedule _ 0 rfl)
  have r6 := Reach.step _ _ r5 (.exStart _ 1 rfl (by simp))
  have r7 := Reach.step _ _ r6 (.exCheck _ 1 rfl)
  have r8 := Reach.step _ _ r7 (.exPop _ 1 1 [] rfl rfl (by simp))
  have r9 := Reach.step _ _ r8 (.exStartTask _ 1 1 rfl)
  have r10 := Reach.step _ _ r9 (.exEndTask _ 1 1 rfl)
  have r13 := Reach.step _ _ r10 (.exSub _ 1 rfl)
  simp [hm] at r13
  have r14 := Reach.step _ _ r13 (.post _ 0 2 rfl)
  have r15 := Reach.step _ _ r14 (.casOk _ 0 2 {} rfl rfl rfl rfl (by rw [hm]; decide))
  have r16 := Reach.step _ _ r15 (.push _ 0 2 true rfl)
  have r17 := Reach.step _ _ r16 (.unlock _ 0 true rfl)
  have r18 := Reach.step _ _ r17 (.schedule _ 0 rfl)
  have r19 := Reach.step _ _ r18 (.exStart _ 2 rfl (by simp))
  have r20 := Reach.step _ _ r19 (.exCheck _ 2 rfl)
  have r21 := Reach.step _ _ r20 (.exPop _ 2 2 [] rfl rfl (by simp))
  have r22 := Reach.step _ _ r21 (.exStartTask _ 2 2 rfl)
  have r23 := Reach.step _ _ r22 (.interrupt _)
  have r24 := Reach.step _ _ r23 (.exCleanup _ 1 rfl (.inr (.inl rfl)))
  have r25 := Reach.step _ _ r24 (.cleanEnd _ 1 rfl rfl)
  exact ⟨_, _, r25, .waited _ rfl, by simp⟩

/-- an orderly history: task 1 runs, `Join` is called meanwhile, the executor finishes, cleans up, and the waiting `Join` returns -/
theorem C48_case : ∃ s s', OReach s ∧ JoinOk s s' ∧ s.word = terminate ∧ s.started = [1] ∧ ¬ Unfinished s' := by
  have hm : cntMod = 536870912 := by unfold cntMod; rfl
  have r0 : OReach { threads := [.idle, .idle] } := .init _ ⟨2, rfl⟩
  have go : ∀ {s s' : St}, OReach s → Step false s s' → (s'.word.intr = true → s.word.intr = true ∨ ∃ i : Nat, s.threads[i]? = some .cleanup) →
      (∀ p ∈ s.threads, p ≠ .schedule) ∨ (∀ p ∈ s'.threads, p ≠ .cleanup) → s'.shared = true → OReach s' := by
    intro s s' h1 h2 h3 h4 h5
    refine .step _ _ h1 ⟨h2, h3, fun i a b => ?_, h5⟩
    rcases h4 with h4 | h4
    · exact h4 _ (List.mem_of_getElem? a) rfl
    · exact h4 _ (List.mem_of_getElem? b) rfl
  have r1 := go r0 (.post _ 0 1 rfl) (by simp) (by simp) rfl
  have r2 := go r1 (.casOk _ 0 1 {} rfl rfl rfl rfl (by rw [hm]; decide)) (by simp) (by simp) rfl
  have r3 := go r2 (.push _ 0 1 true rfl) (by simp) (by simp) rfl
  have r4 := go r3 (.unlock _ 0 true rfl) (by simp) (by simp) rfl
  have r5 := go r4 (.schedule _ 0 rfl) (by simp) (by simp) rfl
  have r6 := go r5 (.exStart _ 1 rfl (by simp)) (by simp) (by simp) rfl
  have r7 := go r6 (.exCheck _ 1 rfl) (by simp) (by simp) rfl
  have r8 := go r7 (.exPop _ 1 1 [] rfl rfl (by simp)) (by simp) (by simp) rfl
  have r9 := go r8 (.exStartTask _ 1 1 rfl) (by simp) (by simp) rfl
  have r10 := go r9 (.join _) (by simp) (by simp) rfl
  have r11 := go r10 (.exEndTask _ 1 1 rfl) (by simp) (by simp) rfl
  have r12 := go r11 (.exSub _ 1 rfl) (by simp) (by simp) rfl
  simp [hm] at r12
  have r13 := go r12 (.exCleanup _ 1 rfl (.inr (.inr ⟨rfl, rfl⟩))) (by simp) (by simp) rfl
  have r14 := go r13 (.cleanEnd _ 1 rfl rfl) (fun _ => .inr ⟨1, rfl⟩) (by simp) rfl
  exact ⟨_, _, r14, .waited _ rfl, rfl, rfl, C48_join_partial _ _ r14 (.waited _ rfl)⟩

#print axioms C48_rejected
#print axioms C48_stops
#print axioms C48_join_partial
#print axioms C48_join_final_partial
#print axioms C48_join_queued_fails
#print axioms C48_join_running_fails
#print axioms C48_case

end Verif.Sequenced
