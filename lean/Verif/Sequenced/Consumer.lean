import Verif.Sequenced.Props
import Verif.Sequenced.Join
/-!
# C44 – who takes tasks out of the queue of a sequenced runner

`InterlockedQueue` allows one consumer (C32).  `Pop` is called at 140 (`ExecuteTaskRunner`) and at 161 (`CleanupTaskQueue`).
-/
namespace Verif.Sequenced
open Verif.Common

/-- about to call `Pop` -/
def AtPop (p : PC) : Prop := p = .exPop ∨ p = .cleanup

theorem OReach.reach {s : St} (h : OReach s) : Reach false s := by
  induction h with
  | init s h => exact .init s h
  | step s s' _ hs ih => exact .step s s' ih hs.1

/-- **C44 (partial), single consumer.** In histories without `Interrupt`, without a refusal by the pool, while users own the runner: at most one thread
executes tasks, and whenever a thread cleans up the queue is empty, nothing is about to enter it and no task is being taken out or run.
Missing: the other histories, `C44_single_consumer_fails`. -/
theorem C44_single_consumer_partial (s : St) (h : OReach s) :
    (∀ i j : Nat, s.threads[i]? = some .exPop → s.threads[j]? = some .exPop → i = j) ∧
    ((∃ i : Nat, s.threads[i]? = some .cleanup) → ¬ Unfinished s) := by
  have hI := inv_reach h.reach
  refine ⟨fun i j hi hj => ?_, fun ⟨i, hi⟩ => ?_⟩
  · refine Classical.byContradiction fun hn => ?_
    have h1 := add_le_sumBy act s.threads i j _ _ hn hi hj
    rw [show act .exPop = 1 from rfl] at h1
    have := hI.a1
    omega
  · have hJ := invJ_reach h
    have := le_sumBy isCl _ _ _ hi
    exact finished_of hJ.cnt (hJ.cl this).1

/-- **C44 fails: two consumers at once.** Executor A has finished task 1 (the counter is 0) and is about to look at the flags (115); task 2 is posted, executor B
is started and about to take it out (140); `Interrupt` is called; A sees the interrupt bit and cleans up (161).  Both threads call `Pop` of the
single-consumer queue, which contains task 2. -/
theorem C44_single_consumer_fails : ∃ s, Reach false s ∧ s.queue = [2] ∧ s.threads[1]? = some .cleanup ∧ s.threads[2]? = some .exPop ∧ s.shared = true := by
  have hm : cntMod = 536870912 := by unfold cntMod; rfl
  have r0 : Reach false { threads := [.idle, .idle, .idle] } := .init _ ⟨3, rfl⟩
  have r1 := Reach.step _ _ r0 (.post _ 0 1 rfl)
  have r2 := Reach.step _ _ r1 (.casOk _ 0 1 {} rfl rfl rfl rfl (by rw [hm]; decide))
  have r3 := Reach.step _ _ r2 (.push _ 0 1 true rfl)
  have r4 := Reach.step _ _ r3 (.unlock _ 0 true rfl)
  have r5 := Reach.step _ _ r4 (.schedule _ 0 rfl)
  have r6 := Reach.step _ _ r5 (.exStart _ 1 rfl (by simp))
  have r7 := Reach.step _ _ r6 (.exCheck _ 1 rfl)
  have r8 := Reach.step _ _ r7 (.exPop _ 1 1 [] rfl rfl (by simp))
  have r9 := Reach.step _ _ r8 (.exStartTask _ 1 1 rfl)
  have r10 := Reach.step _ _ r9 (.exEndTask _ 1 1 rfl)
  have r13 := Reach.step _ _ r10 (.exSub _ 1 rfl)
  simp [hm] at r13
  have r14 := Reach.step _ _ r13 (.post _ 0 2 rfl)
  have r15 := Reach.step _ _ r14 (.casOk _ 0 2 {} rfl rfl rfl rfl (by rw [hm]; decide))
  have r16 := Reach.step _ _ r15 (.push _ 0 2 true rfl)
  have r17 := Reach.step _ _ r16 (.unlock _ 0 true rfl)
  have r18 := Reach.step _ _ r17 (.schedule _ 0 rfl)
  have r19 := Reach.step _ _ r18 (.exStart _ 2 rfl (by simp))
  have r20 := Reach.step _ _ r19 (.exCheck _ 2 rfl)
  have r23 := Reach.step _ _ r20 (.interrupt _)
  have r24 := Reach.step _ _ r23 (.exCleanup _ 1 rfl (.inr (.inl rfl)))
  exact ⟨_, r24, rfl, rfl, rfl, rfl⟩

/-- the partial theorem is not empty: an orderly history reaches a clean-up -/
example : ∃ s, OReach s ∧ s.started = [1] := by
  obtain ⟨s, s', h, _, _, h2, _⟩ := C48_case
  exact ⟨s, h, h2⟩

#print axioms C44_single_consumer_partial
#print axioms C44_single_consumer_fails

end Verif.Sequenced
