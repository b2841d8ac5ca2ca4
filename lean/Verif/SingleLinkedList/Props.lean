import Verif.SingleLinkedList.Model
/-!
# C23 – the singly linked list is a faithful FIFO
-/
set_option linter.unusedSimpArgs false
namespace Verif.SingleLinkedList

/-! ## Specification -/

abbrev Abs := Nat → List Nat

def specStep (A : Abs) : Op → Abs × Option Nat
  | .push l e => (upd A l (A l ++ [e]), none)
  | .pushList l o => if l = o then (A, none) else (upd (upd A l (A l ++ A o)) o [], none)
  | .pop l => (upd A l (A l).tail, (A l).head?)
  | .move dst src => (upd (upd A src []) dst (A src), none)

/-- Caller obligations: a pushed entry is in no list; the target of a move is a new object. -/
def Allowed (A : Abs) : Op → Prop
  | .push _ e => ∀ m, e ∉ A m
  | .move dst src => dst ≠ src ∧ A dst = []
  | _ => True

def specRun (A : Abs) : List Op → Abs × List (Option Nat)
  | [] => (A, [])
  | op :: ops => let (A, r) := specStep A op; let (A, rs) := specRun A ops; (A, r :: rs)

def AllowedRun (A : Abs) : List Op → Prop
  | [] => True
  | op :: ops => Allowed A op ∧ AllowedRun (specStep A op).1 ops

/-! ## Refinement -/

def Linked (h : Heap) : List Nat → Prop
  | [] => True
  | x :: xs => h x = xs.head? ∧ Linked h xs

theorem linked_congr {h h' : Heap} {xs : List Nat} (hh : ∀ x ∈ xs, h' x = h x) :
    Linked h xs → Linked h' xs := by
  induction xs with
  | nil => simp [Linked]
  | cons x xs ih =>
    intro ⟨h1, h2⟩
    exact ⟨by rw [hh x (by simp), h1], ih (fun y hy => hh y (by simp [hy])) h2⟩

theorem linked_snoc {h : Heap} {xs : List Nat} {a : Nat} {ys : List Nat} (hn : (xs ++ a :: ys).Nodup)
    (h1 : Linked h (xs ++ [a])) (h2 : Linked h ys) :
    Linked (h.setNext a ys.head?) (xs ++ a :: ys) := by
  induction xs with
  | nil =>
    refine ⟨by simp [Heap.setNext], linked_congr ?_ h2⟩
    intro x hx; simp only [Heap.setNext]; grind
  | cons x xs ih =>
    obtain ⟨q1, q2⟩ := h1
    refine ⟨?_, ih (by grind) q2⟩
    have : x ≠ a := by grind
    simp only [Heap.setNext, this, if_false, List.append_eq]
    rw [q1]; cases xs <;> rfl

structure Rep (h : Heap) (l : SList) (xs : List Nat) : Prop where
  first : l.first = xs.head?
  last : l.last = xs.getLast?
  linked : Linked h xs
  nodup : xs.Nodup

structure Rel (w : World) (A : Abs) : Prop where
  rep : ∀ l, Rep w.heap (w.lists l) (A l)
  disj : ∀ l m x, x ∈ A l → x ∈ A m → l = m

theorem rep_congr {h h' : Heap} {l xs} (hh : ∀ x ∈ xs, h' x = h x) (r : Rep h l xs) : Rep h' l xs :=
  ⟨r.first, r.last, linked_congr hh r.linked, r.nodup⟩

theorem eq_nil_or_snoc (xs : List Nat) : xs = [] ∨ ∃ ys a, xs = ys ++ [a] := by
  rcases List.eq_nil_or_concat xs with h | ⟨a, ys, h⟩
  · exact .inl h
  · exact .inr ⟨a, ys, by simpa using h⟩

theorem push_rep {h l xs e} (r : Rep h l xs) (he : e ∉ xs) :
    Rep (push h l e).1 (push h l e).2 (xs ++ [e]) ∧ ∀ x, x ∉ xs → x ≠ e → (push h l e).1 x = h x := by
  obtain ⟨r1, r2, r3, r4⟩ := r
  rcases eq_nil_or_snoc xs with rfl | ⟨ys, a, rfl⟩
  · simp at r1 r2
    simp only [push, r2]
    refine ⟨⟨?_, ?_, ?_, ?_⟩, ?_⟩ <;> simp_all [Linked, Heap.setNext]
  · simp at r1 r2
    simp only [push, r2]
    refine ⟨⟨?_, ?_, ?_, ?_⟩, ?_⟩
    · simp_all
    · simp
    · have := linked_snoc (h := h.setNext e none) (xs := ys) (a := a) (ys := [e]) (by grind)
        (linked_congr (by intro x hx; simp only [Heap.setNext]; grind) r3) (by simp [Linked, Heap.setNext])
      simpa using this
    · grind
    · intro x; simp_all [Heap.setNext]

theorem pushList_rep {h l o xs ys} (r : Rep h l xs) (s : Rep h o ys) (hd : ∀ x ∈ xs, x ∉ ys) :
    Rep (pushList h l o).1 (pushList h l o).2.1 (xs ++ ys) ∧ (pushList h l o).2.2 = {} ∧
    ∀ x, x ∉ xs → (pushList h l o).1 x = h x := by
  obtain ⟨r1, r2, r3, r4⟩ := r
  obtain ⟨s1, s2, s3, s4⟩ := s
  cases ys with
  | nil =>
    simp at s1 s2
    simp only [pushList, s1, if_true]
    refine ⟨⟨by simpa using r1, by simpa using r2, by simpa using r3, by simpa using r4⟩, ?_, ?_⟩
    · cases o; simp_all
    · simp
  | cons b bs =>
    simp only [List.head?_cons] at s1
    have hne : o.first ≠ none := by simp [s1]
    rcases eq_nil_or_snoc xs with rfl | ⟨cs, c, rfl⟩
    · simp at r1 r2
      simp only [pushList, hne, if_false, r2]
      refine ⟨⟨?_, ?_, ?_, ?_⟩, ?_, ?_⟩ <;> simp_all [Linked]
    · simp at r1 r2
      simp only [pushList, hne, if_false, r2]
      have hnd : (cs ++ c :: b :: bs).Nodup := by grind
      refine ⟨⟨?_, ?_, ?_, ?_⟩, ?_, ?_⟩
      · simp [r1]
      · rw [s2]; simp [List.getLast?_cons]
      · have := linked_snoc (h := h) (xs := cs) (a := c) (ys := b :: bs) hnd r3 s3
        simpa [s1] using this
      · simpa using hnd
      · trivial
      · intro x hx
        simp only [Heap.setNext]; grind

theorem pop_rep {h l xs} (r : Rep h l xs) :
    Rep h (pop h l).1 xs.tail ∧ (pop h l).2 = xs.head? := by
  obtain ⟨r1, r2, r3, r4⟩ := r
  rcases xs with _ | ⟨a, _ | ⟨b, ys⟩⟩
  · simp at r1 r2
    simp only [pop, r1]
    refine ⟨⟨?_, ?_, ?_, ?_⟩, ?_⟩ <;> simp_all [Linked]
  · simp [Linked] at r1 r2 r3
    simp only [pop, r1, r3]
    refine ⟨⟨?_, ?_, ?_, ?_⟩, ?_⟩ <;> simp_all [Linked]
  · simp [Linked] at r1 r2 r3
    simp only [pop, r1, r3]
    refine ⟨⟨?_, ?_, ?_, ?_⟩, ?_⟩
    · simp
    · simp [r2, List.getLast?_cons]
    · exact r3.2
    · simp_all
    · simp

theorem step_rel {w A} (r : Rel w A) (op : Op) (ha : Allowed A op) :
    (step w op).2 = (specStep A op).2 ∧ Rel (step w op).1 (specStep A op).1 := by
  have rd := r.disj
  have h0 : ∀ h, Rep h {} [] := fun h => ⟨rfl, rfl, trivial, List.nodup_nil⟩
  cases op with
  | push l e =>
    have hp := push_rep (r.rep l) (ha l)
    refine ⟨rfl, fun m => ?_, fun a b x => ?_⟩
    · simp only [step, specStep, upd]
      by_cases hm : m = l
      · simp [hm, hp.1]
      · simp only [hm, if_false]
        refine rep_congr (fun x hx => hp.2 x (fun h => hm (rd _ _ _ hx h)) ?_) (r.rep m)
        intro h; subst h; exact ha m hx
    · have ha' : ∀ m, e ∉ A m := ha
      simp only [step, specStep, upd]; grind
  | pushList l o =>
    by_cases hlo : l = o
    · simp only [step, specStep, hlo, if_true]; exact ⟨trivial, r⟩
    · have hp := pushList_rep (r.rep l) (r.rep o) (fun x h1 h2 => hlo (rd _ _ _ h1 h2))
      simp only [step, specStep, hlo, if_false, hp.2.1]
      refine ⟨trivial, fun m => ?_, fun a b x => ?_⟩
      · simp only [upd]
        by_cases h1 : m = o
        · simpa [h1] using h0 _
        · by_cases h2 : m = l
          · simp [h1, h2, hp.1, hlo]
          · simp only [h1, h2, if_false]
            exact rep_congr (fun x hx => hp.2.2 x (fun h => h2 (rd _ _ _ hx h))) (r.rep m)
      · simp only [upd]; grind
  | pop l =>
    have hp := pop_rep (r.rep l)
    refine ⟨hp.2, fun m => ?_, fun a b x => ?_⟩
    · have := r.rep m
      simp only [step, specStep, upd]; grind
    · have : ∀ x, x ∈ (A l).tail → x ∈ A l := fun x hx => List.mem_of_mem_tail hx
      simp only [step, specStep, upd]; grind
  | move d s =>
    obtain ⟨ha1, ha2⟩ := ha
    refine ⟨rfl, fun m => ?_, fun a b x => ?_⟩
    · have := r.rep m
      have := r.rep s
      have := h0 w.heap
      simp only [step, specStep, upd]; grind
    · simp only [step, specStep, upd]; grind

theorem run_rel {w A} (r : Rel w A) (ops : List Op) (ha : AllowedRun A ops) :
    (run w ops).2 = (specRun A ops).2 ∧ Rel (run w ops).1 (specRun A ops).1 := by
  induction ops generalizing w A with
  | nil => exact ⟨rfl, r⟩
  | cons op ops ih =>
    obtain ⟨h1, r1⟩ := step_rel r op ha.1
    obtain ⟨h2, r2⟩ := ih r1 ha.2
    simp only [run, specRun]
    exact ⟨by rw [h1, h2], r2⟩

/-- **C23.** For every history of calls on any number of lists that respects the caller obligations, every `Pop` returns
exactly the entry that the FIFO specification returns (null when empty), `IsEmpty` is emptiness of the specified sequence, and
`GetFirst` / `GetLast` (45-53) are its first and last entry. -/
theorem C23_history (ops : List Op) (ha : AllowedRun (fun _ => []) ops) :
    (run {} ops).2 = (specRun (fun _ => []) ops).2 ∧
    ∀ l, (isEmpty ((run {} ops).1.lists l) = true ↔ (specRun (fun _ => []) ops).1 l = []) ∧
      ((run {} ops).1.lists l).first = ((specRun (fun _ => []) ops).1 l).head? ∧
      ((run {} ops).1.lists l).last = ((specRun (fun _ => []) ops).1 l).getLast? := by
  have r0 : Rel {} (fun _ => []) := ⟨fun _ => ⟨rfl, rfl, trivial, List.nodup_nil⟩, by simp⟩
  obtain ⟨h1, h2⟩ := run_rel r0 ops ha
  refine ⟨h1, fun l => ⟨?_, (h2.rep l).first, (h2.rep l).last⟩⟩
  rw [isEmpty, (h2.rep l).first]; simp

/-- Non-vacuity: pushes, concatenation and pops; an entry may be pushed again after it was popped. -/
example : AllowedRun (fun _ => []) [.push 0 1, .push 1 2, .push 1 3, .pushList 0 1, .pop 0, .push 1 1, .move 2 0, .pop 2] := by
  refine ⟨?_, ?_, ?_, trivial, trivial, ?_, ⟨by decide, by decide⟩, trivial, trivial⟩ <;>
    (intro m; simp [specStep, upd]; try grind)

example : (specRun (fun _ => []) [.push 0 1, .push 1 2, .push 1 3, .pushList 0 1, .pop 0, .pop 0, .pop 0, .pop 0]).2
    = [none, none, none, none, some 1, some 2, some 3, none] := by decide

#print axioms C23_history

end Verif.SingleLinkedList
