import Verif.DoublyLinkedList.Lemmas
/-!
# C22 – the doubly linked list is a faithful sequence
-/
namespace Verif.DoublyLinkedList

/-- What a client can see of list object `l`: walking forwards from the first entry, walking backwards from the last
entry (with any bound on the number of visited entries that is large enough), and emptiness. -/
def Shows (w : World) (l : Nat) (xs : List Nat) : Prop :=
  (∀ n, xs.length ≤ n → walkNext w.heap n (w.lists l).first = xs) ∧
  (∀ n, xs.length ≤ n → walkPrior w.heap n (w.lists l).last = xs.reverse) ∧
  (isEmpty (w.lists l) = true ↔ xs = [])

/-- **C22.** For every history of calls on any number of list objects that respects the caller obligations
(`AllowedRun`): no undefined behaviour occurs, the returned entries are those of the sequence specification,
every list shows exactly its specified sequence both forwards and backwards, and every entry that is in no list
has null links. -/
theorem C22_history (ops : List Op) (ha : AllowedRun (fun _ => []) ops) :
    ∃ w, run {} ops = some (w, (specRun (fun _ => []) ops).2) ∧
      (∀ l, Shows w l ((specRun (fun _ => []) ops).1 l)) ∧
      (∀ e, (∀ l, e ∉ (specRun (fun _ => []) ops).1 l) → (w.heap e).prior = none ∧ (w.heap e).next = none) := by
  obtain ⟨w, h1, h2⟩ := run_rel rel_init ops ha
  refine ⟨w, h1, fun l => ⟨?_, ?_, ?_⟩, fun e he => ?_⟩
  · intro n hn
    rw [(h2.rep l).first]; exact walkNext_linked n (h2.rep l).linked hn
  · intro n hn
    rw [(h2.rep l).last]; exact walkPrior_linked n (h2.rep l).linked hn
  · rw [isEmpty, (h2.rep l).first]; simp
  · rw [h2.free e he]; exact ⟨rfl, rfl⟩

/-- The history theorem is not vacuous: a history using the operations is allowed. -/
example : AllowedRun (fun _ => [])
    [.pushBack 0 1, .pushBack 0 2, .insertBefore 0 2 3, .pushBack 1 5, .pushBackList 0 1,
     .remove 0 3, .popFront 0, .popBack 0, .flush 2 0, .pushBackList 2 2] := by
  refine ⟨by simp [Allowed], ?_, ⟨by decide, ?_⟩, ?_, trivial, ?_, trivial, trivial, ?_, trivial, trivial⟩
  · intro m; simp only [specStep, setList]; grind
  · intro m; simp only [specStep, setList]; grind
  · intro m; simp [specStep, setList, insBefore]; grind
  · show 3 ∈ _; decide
  · exact ⟨by decide, by decide⟩

/-- … and its specified outcome is the expected one. -/
example : (specRun (fun _ => [])
    [.pushBack 0 1, .pushBack 0 2, .insertBefore 0 2 3, .insertFront 0 4, .pushBack 1 5, .pushBackList 0 1,
     .remove 0 3, .popFront 0]).1 0 = [1, 2, 5] := by decide

#print axioms C22_history

end Verif.DoublyLinkedList
