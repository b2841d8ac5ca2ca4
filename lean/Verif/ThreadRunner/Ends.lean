import Verif.ThreadRunner.Props

/-! # What ends the loop of a thread runner (C65) -/
namespace Verif.ThreadRunner

/-- **C65**: a message loop of the runner returns only when the runner has been interrupted or nobody has a reference to it any more, or on `WM_QUIT` (inside
`PeekMessage`).  Stopping the acceptance of new tasks (`stop`, set by `Join`) does not end it: the tasks accepted before are executed. -/
theorem C65_loop_ends {bg : Bool} {E : Env} {s s' : St} (hs : Step bg E s s') (h0 : s.pc ≠ .ret) (h1 : s'.pc = .ret) :
    s.shared = false ∨ s.word.intr = true ∨ s.pc = .peek ∨ s.pc = .drain := by
  have hr : ∀ l, resume l ≠ .ret := by
    intro l h
    cases l with
    | nil => cases h
    | cons a l => cases a <;> cases h
  cases hs with
  | peekChk h => cases hh : s.shared <;> simp_all
  | chk h => simp only at h1; split at h1 <;> simp_all
  | popChk h => simp only at h1; split at h1 <;> simp_all
  | drainChk h => simp only at h1; split at h1 <;> simp_all
  | peekQuit h => exact .inr (.inr (.inl h))
  | drainQuit h => exact .inr (.inr (.inr h))
  | leave h => exact absurd h h0
  | leaveClean h => exact absurd h h0
  | cleanEnd h => exact absurd h1 (hr _)
  | cbEnd k h =>
    exfalso
    cases k <;> cases bg <;> cases h1
  | sub h hp =>
    exfalso
    simp only [afterSub] at h1
    cases bg <;> (split at h1 <;> cases h1)
  | wokenMsg h => cases bg <;> cases h1
  | _ => first
    | exact absurd h1 h0
    | (exfalso; cases bg <;> cases h1)
    | cases h1

/-- Case: a runner that has been told to take no more tasks (`Join`), with task 7 in its queue: the background loop passes the test before the task
and takes it. -/
theorem C65_loop_ends_example : ∃ s s', Reach true {} s ∧ s.word.stop = true ∧ s.pc = .popChk ∧ s.queue = [7] ∧ Step true {} s s' ∧ s'.pc = .pop := by
  have r0 := reach_start true {} 1
  have r1 := post_wake r0 0 7 rfl rfl rfl (by unfold m28; decide) (by decide)
  have r2 := Reach.step _ _ r1 (.disable _)
  have r3 := Reach.step _ _ r2 (.enter _ rfl)
  have r4 := Reach.step _ _ r3 (.load _ rfl)
  have r5 := Reach.step _ _ r4 (.decRun _ rfl (by decide +kernel))
  exact ⟨_, _, r5, rfl, rfl, rfl, .popChk _ rfl, rfl⟩

/-- setting the state of another thread -/
theorem set_other {l : List PC} {i j : Nat} {p q : PC} (hi : l[i]? = some p) (hj : l[j]? = some .joining) (hp : p ≠ .joining) :
    (l.set i q)[j]? = some .joining := by
  have : i ≠ j := by
    rintro rfl
    rw [hi] at hj
    exact hp (Option.some.inj hj)
  rw [List.getElem?_set_ne this]; exact hj

/-- a step that ends the wait of `Join` finds the number 6 of a terminated runner: `stop` and `intr` set, not locked, no task pending -/
theorem join_step {bg : Bool} {E : Env} {s s' : St} (hs : Step bg E s s') {i : Nat} (hj : s.threads[i]? = some .joining) :
    s'.threads[i]? = some .joining ∨ s.word.raw = 6 := by
  cases hs with
  | joined k h hw => exact .inr hw
  | _ => left; first
    | exact hj
    | exact set_other (by assumption) hj (by simp)

/-- **C48** (thread runner): such a `Join` does wait: in every continuation without `Interrupt`, loss of the last reference and WM_QUIT the thread is still inside
`Join`. -/
theorem C48_thread_join_waits {bg : Bool} {E : Env} {s u : St} (h : Later bg E s u) (hi : s.word.intr = false) {i : Nat}
    (hj : s.threads[i]? = some .joining) : u.threads[i]? = some .joining := by
  induction h with
  | refl => exact hj
  | step a b ha hs hu ih =>
    rcases join_step hs ih with h | h
    · exact h
    · exact absurd h (C48_thread_join_stuck ha hi).2

/-- **C48**: `Join` returns from its wait only when the runner is terminated: `stop` and `intr` set, no task pending, nobody pushing. -/
theorem C48_thread_join_truthful {bg : Bool} {E : Env} {s s' : St} (hs : Step bg E s s') {i : Nat} (hj : s.threads[i]? = some .joining)
    (hr : s'.threads[i]? ≠ some .joining) : s.word.stop = true ∧ s.word.intr = true ∧ s.word.lock = false ∧ s.word.cnt = 0 := by
  have h : s.word.raw = 6 := (join_step hs hj).resolve_left hr
  have := raw_inj (w := s.word) (v := { stop := true, intr := true }) h
  rw [this]
  exact ⟨rfl, rfl, rfl, rfl⟩

/-- Case: `Join` waits for a runner that has not started; the runner is interrupted, its loop is entered, returns, cleans up, and `Join` returns. -/
theorem C48_thread_join_case : ∃ s s', Reach true {} s ∧ s.threads = [.joining] ∧ Step true {} s s' ∧ s'.threads = [.idle] := by
  have r0 := reach_start true {} 1
  have r1 := post_wake r0 0 7 rfl rfl rfl (by unfold m28; decide) (by decide)
  have r2 := Reach.step _ _ r1 (.join _ 0 rfl)
  have r3 := Reach.step _ _ r2 (.interrupt _)
  have r4 := Reach.step _ _ r3 (.enter _ rfl)
  have r5 := Reach.step _ _ r4 (.load _ rfl)
  have r6 := Reach.step _ _ r5 (.decRun _ rfl (by decide +kernel))
  have r7 := Reach.step _ _ r6 (.popChk _ rfl)
  have r8 := Reach.step _ _ r7 (.leaveClean _ rfl (.inr (.inl rfl)))
  have r9 := Reach.step _ _ r8 (.cleanPop _ 7 [] rfl rfl)
  have r10 := Reach.step _ _ r9 (.cleanEnd _ rfl rfl)
  exact ⟨_, _, r10, by decide +kernel, .joined _ 0 (by decide +kernel) rfl, by decide +kernel⟩

#print axioms C48_thread_join_case
#print axioms C48_thread_join_waits
#print axioms C48_thread_join_truthful
#print axioms C65_loop_ends
#print axioms C65_loop_ends_example

end Verif.ThreadRunner
