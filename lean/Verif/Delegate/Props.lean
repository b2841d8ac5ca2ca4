import Verif.Delegate.Model
import Verif.DoublyLinkedList.Lemmas
/-!
# C57 – the delegate handler list is a faithful registry

Claim: `AddHandler` registers a handler at most once (in the whole program), `RemoveHandler` removes exactly a registered
handler and reports whether it was registered, `Invoke` calls each registered handler once in registration order.
The claim fails (`C57_fails`) when the handler is the only one of its delegate; `C57_history_partial` proves it for all histories
that never re-add such a handler.
-/
namespace Verif.Delegate
open Verif.DoublyLinkedList

/-- Specification: each delegate has a sequence of registered handlers. -/
def registered (A : Abs) (e : Nat) : Prop := ∃ d, e ∈ A d

open Classical in
noncomputable def specStep (A : Abs) : Op → Abs × Obs
  | .add _ none => (A, false, [])
  | .add d (some e) => if registered A e then (A, false, []) else (setList A d (A d ++ [e]), true, [])
  | .remove _ none _ => (A, false, [])
  | .remove d (some e) _ => if e ∈ A d then (setList A d ((A d).filter (· ≠ e)), true, []) else (A, false, [])
  | .append d o => if d = o then (A, true, []) else (setList (setList A d (A d ++ A o)) o [], true, [])
  | .invoke d _ => (setList A d [], true, A d)

noncomputable def specRun (A : Abs) : List Op → Abs × List Obs
  | [] => (A, [])
  | op :: ops => ((specRun (specStep A op).1 ops).1, (specStep A op).2 :: (specRun (specStep A op).1 ops).2)

/-- Restriction under which the code is right: a handler is not added while it is the only handler of some delegate;
loops get enough iterations. -/
def Allowed (A : Abs) : Op → Prop
  | .add _ (some e) => ∀ d, A d ≠ [e]
  | .remove d _ fuel => (A d).length ≤ fuel
  | .invoke d fuel => (A d).length ≤ fuel
  | _ => True

def AllowedRun (A : Abs) : List Op → Prop
  | [] => True
  | op :: ops => Allowed A op ∧ AllowedRun (specStep A op).1 ops

theorem linked_mem {h p xs n e} (hl : Linked h p xs n) (he : e ∈ xs) :
    ∃ as bs, xs = as ++ e :: bs ∧ (h e).prior = as.getLast?.or p ∧ (h e).next = bs.head?.or n := by
  obtain ⟨as, bs, rfl⟩ := List.append_of_mem he
  rw [linked_append] at hl
  exact ⟨as, bs, rfl, hl.2.1, hl.2.2.1⟩

theorem search_linked {h p xs e} (n : Nat) (hl : Linked h p xs none) (hn : xs.length ≤ n) :
    search h e n xs.head? = some (decide (e ∈ xs)) := by
  induction xs generalizing p n with
  | nil => cases n <;> simp [search]
  | cons x xs ih =>
    cases n with
    | zero => simp at hn
    | succ n =>
      simp at hn
      obtain ⟨h1, h2, h3⟩ := hl
      simp only [List.head?_cons, search, h2, Option.or_none, ih n h3 hn]
      by_cases hx : x = e
      · simp [hx]
      · have : ¬ e = x := fun h => hx h.symm
        simp [hx, this]

theorem head_ne {xs : List Nat} {e} (h : e ∉ xs) : xs.head? ≠ some e := by
  cases xs <;> simp_all; grind

theorem last_ne {xs : List Nat} {e} (h : e ∉ xs) : xs.getLast? ≠ some e := by
  intro h'; exact h (List.mem_of_getLast? h')

theorem doRemove_rel {w A} (r : Rel w A) {d e : Nat} (he : e ∈ A d) :
    Rel (doRemove w d e) (setList A d ((A d).filter (· ≠ e))) := by
  obtain ⟨w', h1, h2⟩ := step_rel r (.remove d e) he
  simp only [DoublyLinkedList.step, DoublyLinkedList.specStep, Option.some.injEq, Prod.mk.injEq] at h1
  rw [← h1.1] at h2; exact h2

theorem removeHandler_rel {w A} (r : Rel w A) {d e fuel : Nat} (hf : (A d).length ≤ fuel) :
    removeHandler w d fuel (some e) =
      if e ∈ A d then some (doRemove w d e, true) else some (w, false) := by
  have hr := r.rep d
  simp only [removeHandler]
  by_cases he : e ∈ A d
  · obtain ⟨as, bs, h1, h2, h3⟩ := linked_mem hr.linked he
    simp only [he, if_true]
    by_cases hp : (w.heap e).prior = none
    · have : as = [] := by simpa [h2] using hp
      subst this
      simp [hp, hr.first, h1]
    · simp only [hp, if_false]
      by_cases hn : (w.heap e).next = none
      · have : bs = [] := by simpa [h3] using hn
        subst this
        simp [hn, hr.last, h1]
      · simp only [hn, if_false, hr.first, search_linked fuel hr.linked hf, he, decide_true]
  · have h1 := head_ne he
    have h2 := last_ne he
    simp only [he, if_false, hr.first, hr.last, h1, h2, search_linked fuel hr.linked hf, decide_false, ite_self]

theorem append_rel {w A} (r : Rel w A) (d o : Nat) :
    Rel (appendDelegate w d o) (specStep A (.append d o)).1 := by
  by_cases h : d = o
  · subst h
    simp only [appendDelegate, flush, specStep, if_true]
    have hd := r.rep d
    have hl : pushBackList w.heap (setList w.lists d {} d) (w.lists d) = (w.heap, w.lists d, {}) := by
      simp only [setList, if_true, pushBackList]
      have h1 := hd.first
      have h2 := hd.last
      cases hx : A d with
      | nil => simp [hx] at h1 h2; simp [h1]; cases hh : w.lists d; simp_all
      | cons x xs => simp [hx] at h1 h2; simp [h1]
    rw [hl]
    have : setList (setList w.lists d {}) d (w.lists d) = w.lists := by
      funext m; simp only [setList]; split <;> simp_all
    simp only [this]
    exact r
  · obtain ⟨w', h1, h2⟩ := step_rel r (.pushBackList d o) trivial
    simp only [DoublyLinkedList.step, h, if_false, Option.some.injEq, Prod.mk.injEq] at h1
    have hs : (specStep A (.append d o)).1 = (DoublyLinkedList.specStep A (.pushBackList d o)).1 := by
      simp [specStep, DoublyLinkedList.specStep, h]
    rw [hs]
    have h3 : (pushBackList w.heap (w.lists d) (w.lists o)).2.2 = {} :=
      (pushBackList_rep (r.rep d) (r.rep o) (fun x h1 h2 => h (r.disj _ _ _ h1 h2))).2.1
    have : appendDelegate w d o = w' := by
      rw [← h1.1]
      simp only [appendDelegate, flush, h3]
      have e1 : setList w.lists o ({} : DList) d = w.lists d := by simp [setList, h]
      rw [e1]
      congr 1
      funext m
      simp only [setList]
      by_cases hm : m = d <;> by_cases hm' : m = o <;> simp_all
    rw [this]; exact h2

theorem invoke_rel {w A} (r : Rel w A) {d fuel : Nat} (hf : (A d).length ≤ fuel) :
    ∃ w', invoke w d fuel = some (w', A d) ∧ Rel w' (setList A d []) := by
  induction fuel generalizing w A with
  | zero =>
    have hnil : A d = [] := by simpa using hf
    have h1 := (r.rep d).first
    refine ⟨w, by simp [invoke, h1, hnil], ?_⟩
    have : setList A d [] = A := by funext m; simp only [setList]; split <;> simp_all
    rw [this]; exact r
  | succ n ih =>
    obtain ⟨w1, h1, h2⟩ := step_rel r (.popFront d) trivial
    simp only [DoublyLinkedList.step, DoublyLinkedList.specStep, Option.some.injEq, Prod.mk.injEq] at h1 h2
    obtain ⟨h1a, h1b⟩ := h1
    cases hx : A d with
    | nil =>
      rw [hx] at h1b
      have : setList A d [] = A := by funext m; simp only [setList]; split <;> simp_all
      refine ⟨w, ?_, by rw [this]; exact r⟩
      simp only [List.head?_nil] at h1b
      simp only [invoke]
      split
      · rfl
      · rename_i h' l' e' he; rw [he] at h1b; simp at h1b
    | cons x xs =>
      rw [hx] at h1b h2 hf
      simp only [List.length_cons, Nat.succ_le_succ_iff, List.tail_cons] at hf h2
      have hA1 : (setList A d xs d).length ≤ n := by simpa [setList] using hf
      obtain ⟨w2, h3, h4⟩ := ih h2 hA1
      have e1 : setList A d xs d = xs := by simp [setList]
      have e2 : setList (setList A d xs) d [] = setList A d [] := by funext m; simp only [setList]; split <;> rfl
      rw [e1] at h3; rw [e2] at h4
      refine ⟨w2, ?_, h4⟩
      simp only [List.head?_cons] at h1b
      simp only [invoke]
      split
      · rename_i h' l' he; rw [he] at h1b; simp at h1b
      · rename_i h' l' e' he
        rw [he] at h1b h1a
        simp only [Option.some.injEq] at h1b h1a
        rw [h1a, h3, h1b]

theorem step_rel' {w A} (r : Rel w A) (op : Op) (ha : Allowed A op) :
    ∃ w', step w op = some (w', (specStep A op).2) ∧ Rel w' (specStep A op).1 := by
  cases op with
  | add d e =>
    cases e with
    | none => exact ⟨w, rfl, r⟩
    | some e =>
      by_cases hreg : registered A e
      · have : addHandler w d (some e) = (w, false) := by
          obtain ⟨m, hm⟩ := hreg
          obtain ⟨as, bs, h1, h2, h3⟩ := linked_mem (r.rep m).linked hm
          have hne := ha m
          simp only [addHandler, ite_eq_left_iff, not_or, Decidable.not_not]
          intro ⟨q1, q2⟩
          rw [h2] at q1; rw [h3] at q2
          have : as = [] := by simpa using q1
          have : bs = [] := by simpa using q2
          subst_vars
          exact absurd h1 hne
        refine ⟨w, by simp [step, this, specStep, hreg], by simpa [specStep, hreg] using r⟩
      · have hfree : ∀ m, e ∉ A m := fun m hm => hreg ⟨m, hm⟩
        obtain ⟨w', h1, h2⟩ := step_rel r (.pushBack d e) hfree
        simp only [DoublyLinkedList.step, Option.some.injEq, Prod.mk.injEq] at h1
        refine ⟨w', ?_, by simpa [specStep, hreg, DoublyLinkedList.specStep] using h2⟩
        simp only [step, addHandler, r.free e hfree, specStep, hreg, if_false]
        simp [← h1.1]
  | remove d e fuel =>
    cases e with
    | none => exact ⟨w, rfl, r⟩
    | some e =>
      simp only [step, removeHandler_rel r ha, specStep]
      by_cases he : e ∈ A d
      · simp only [he, if_true, Option.map_some]; exact ⟨_, rfl, doRemove_rel r he⟩
      · simp only [he, if_false, Option.map_some]; exact ⟨_, rfl, r⟩
  | append d o =>
    refine ⟨_, ?_, append_rel r d o⟩
    simp only [step, specStep]; split <;> rfl
  | invoke d fuel =>
    obtain ⟨w', h1, h2⟩ := invoke_rel r (d := d) (fuel := fuel) ha
    exact ⟨w', by simp [step, h1, specStep], by simpa [specStep] using h2⟩

theorem run_rel' {w A} (r : Rel w A) (ops : List Op) (ha : AllowedRun A ops) :
    ∃ w', run w ops = some (w', (specRun A ops).2) ∧ Rel w' (specRun A ops).1 := by
  induction ops generalizing w A with
  | nil => exact ⟨w, rfl, r⟩
  | cons op ops ih =>
    obtain ⟨w1, h1, r1⟩ := step_rel' r op ha.1
    obtain ⟨w2, h2, r2⟩ := ih r1 ha.2
    exact ⟨w2, by simp only [run, h1, h2, specRun], r2⟩

/-- **C57 (partial).** For every history in which no handler is added while it is the sole handler of a delegate, each call
returns exactly what the registry specification says, and `Invoke` calls exactly the registered handlers in order. -/
theorem C57_history_partial (ops : List Op) (ha : AllowedRun (fun _ => []) ops) :
    ∃ w, run {} ops = some (w, (specRun (fun _ => []) ops).2) := by
  obtain ⟨w, h, _⟩ := run_rel' rel_init ops ha
  exact ⟨w, h⟩

/-- **C57 fails.** Adding the sole handler of a delegate a second time is accepted, and `Invoke` then calls it twice,
whereas the specification refuses the second registration and calls it once. -/
theorem C57_fails :
    (∃ w, run {} [.add 0 (some 7), .add 0 (some 7), .invoke 0 10]
      = some (w, [(true, []), (true, []), (true, [7, 7])])) ∧
    (specRun (fun _ => []) [.add 0 (some 7), .add 0 (some 7), .invoke 0 10]).2
      = [(true, []), (false, []), (true, [7])] := by
  constructor
  · exact ⟨_, rfl⟩
  · simp [specRun, specStep, registered, setList]

/-- Non-vacuity of `C57_history_partial`: registration, refused duplicate registration, removal, invocation. -/
example : AllowedRun (fun _ => [])
    [.add 0 (some 1), .add 0 (some 2), .add 1 (some 1), .remove 0 (some 1) 5, .invoke 0 5] := by
  let A1 : Abs := setList (fun _ => []) 0 [1]
  let A2 : Abs := setList A1 0 [1, 2]
  let A3 : Abs := setList A2 0 [2]
  have h1 : specStep (fun _ => []) (.add 0 (some 1)) = (A1, true, []) := by
    simp [specStep, registered, A1]
  have h2 : specStep A1 (.add 0 (some 2)) = (A2, true, []) := by
    have : ¬ registered A1 2 := by simp only [registered, A1, setList]; grind
    simp [specStep, this, A2, A1, setList]
  have h3 : specStep A2 (.add 1 (some 1)) = (A2, false, []) := by
    have : registered A2 1 := ⟨0, by simp [A2, setList]⟩
    simp [specStep, this]
  have h4 : specStep A2 (.remove 0 (some 1) 5) = (A3, true, []) := by
    simp [specStep, A3, A2, setList]
  simp only [AllowedRun, h1, h2, h3, h4, Allowed]
  refine ⟨by simp, ?_, ?_, ?_, ?_, trivial⟩
  · intro d; simp only [A1, setList]; split <;> simp
  · intro d; simp only [A2, A1, setList]; split <;> simp
  · simp [A2, setList]
  · simp [A3, setList]

#print axioms C57_history_partial
#print axioms C57_fails

end Verif.Delegate
