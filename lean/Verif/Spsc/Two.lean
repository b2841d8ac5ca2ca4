import Verif.Spsc.Props
/-!
# C32 – what happens when two threads call `Pop` at the same time

`SequencedTaskRunnerImpl` does so: `Verif.Sequenced.C44_single_consumer_fails`.
-/
namespace Verif.Spsc

/-- a second consumer: the same steps with its own program counter -/
inductive Step2 (N : Nat) : St × CPC → St × CPC → Prop
  | one {s s' c} : Step N false s s' → Step2 N (s, c) (s', c)
  | two {s s' c} : Step N false { s with cons := c } s' → Step2 N (s, c) ({ s' with cons := s.cons }, s'.cons)

inductive Reach2 (N : Nat) : St × CPC → Prop
  | init : Reach2 N (init, .idle)
  | step {x y} : Reach2 N x → Step2 N x y → Reach2 N y

/-- **C32 fails with two consumers.** For every block size: one entry is pushed and both consumers obtain it; afterwards the read index is ahead of the write
index, so that the block, although nothing is in it, counts as not empty. -/
theorem C32_two_consumers_fails {N : Nat} (hN : 0 < N) (e : Nat) : ∃ s, Reach2 N (s, .idle) ∧ s.prod = .idle ∧ s.cons = .idle ∧ s.pushed = [e] ∧ s.popped = [e, e] ∧
    ∃ b, s.first = some b ∧ (s.blocks b).r = 2 ∧ (s.blocks b).w = 1 := by
  have r0 : Reach2 N (init, .idle) := .init
  have r1 := r0.step (.one (.startNew e rfl rfl))
  have r2 := r1.step (.one (.setFirst e rfl))
  have r3 := r2.step (.one (.notFull e 0 rfl rfl (by simp [upd, init, fresh]; omega)))
  have r4 := r3.step (.one (.write e 0 rfl rfl))
  have r5 := r4.step (.one (.bump e 0 rfl rfl))
  have r6 := r5.step (.one (.popStart 0 rfl (by simp) rfl))
  have r7 := r6.step (.one (.nonEmpty 0 rfl rfl (by simp [upd, init, fresh])))
  have r8 := r7.step (.one (.take 0 rfl rfl))
  have r9 := r8.step (.two (.popStart 0 rfl (by simp) rfl))
  have r10 := r9.step (.two (.nonEmpty 0 rfl rfl (by simp [upd, init, fresh])))
  have r11 := r10.step (.two (.take 0 rfl rfl))
  have r12 := r11.step (.one (.inc _ 0 rfl rfl))
  have r13 := r12.step (.two (.inc _ 0 rfl rfl))
  refine ⟨_, r13, rfl, rfl, rfl, ?_, 0, rfl, ?_, ?_⟩ <;> simp [upd, init, fresh]

#print axioms C32_two_consumers_fails

end Verif.Spsc
