import Verif.Interlocked.Props

/-! # Operations take effect (C34) -/
namespace Verif.Interlocked

/-- **C34**: every operation of a thread that is not disturbed takes effect, once, whatever the other threads were doing. -/
theorem C34_progress {n : Nat} (s : St n) (i : Nat) (op : Op n) (h : s.threads[i]? = some .idle) :
    ∃ t r, Reach s t ∧ t.log = s.log ++ [(op, r)] ∧ t.threads[i]? = some .idle := by
  have hi : i < s.threads.length := (List.getElem?_eq_some_iff.1 h).1
  have one : ∀ w r, op.single s.mem = some (w, r) → ∃ t r, Reach s t ∧ t.log = s.log ++ [(op, r)] ∧ t.threads[i]? = some .idle :=
    fun w r hs => ⟨_, r, Reach.refl.step (.single h hs), rfl, h⟩
  have two : op.isLoop = true → ∃ t r, Reach s t ∧ t.log = s.log ++ [(op, r)] ∧ t.threads[i]? = some .idle := by
    intro hl
    have h1 : (s.threads.set i (.loop op s.mem))[i]? = some (.loop op s.mem) := List.getElem?_set_self hi
    refine ⟨_, _, (Reach.refl.step (.start h hl)).step (.casOk h1 rfl), rfl, ?_⟩
    exact List.getElem?_set_self (by rw [List.length_set]; exact hi)
  cases op with
  | bitOr m => exact two rfl
  | bitXor m => exact two rfl
  | bitAnd m => exact two rfl
  | _ => exact one _ _ rfl

/-- Case: two threads, one in the middle of a `BitXor`; the other one adds 5. -/
theorem C34_progress_example : ∃ t r, Reach (n := 8) ⟨3#8, [.loop (.bitXor 1#8) 3#8, .idle], []⟩ t ∧ t.log = [(.add 5#8, r)] ∧ t.threads[1]? = some .idle :=
  C34_progress _ 1 (.add 5#8) rfl

#print axioms C34_progress

end Verif.Interlocked
