/-! Sums over lists of threads (helper lemmas for the concurrent models). -/
namespace Verif.Common

/-- `Σ_{x ∈ l} f x` -/
def sumBy {α : Type} (f : α → Nat) : List α → Nat
  | [] => 0
  | x :: xs => f x + sumBy f xs

@[simp] theorem sumBy_nil {α} (f : α → Nat) : sumBy f [] = 0 := rfl
@[simp] theorem sumBy_cons {α} (f : α → Nat) (x) (xs : List α) : sumBy f (x :: xs) = f x + sumBy f xs := rfl

theorem sumBy_append {α} (f : α → Nat) (xs ys : List α) : sumBy f (xs ++ ys) = sumBy f xs + sumBy f ys := by
  induction xs with
  | nil => simp
  | cons x xs ih => simp [ih]; omega

theorem sumBy_set {α} (f : α → Nat) (l : List α) (i : Nat) (x y : α) (h : l[i]? = some y) :
    sumBy f (l.set i x) + f y = sumBy f l + f x := by
  induction l generalizing i with
  | nil => simp at h
  | cons a l ih =>
    cases i with
    | zero => simp at h; subst h; simp; omega
    | succ i => simp at h; have := ih i h; simp; omega

theorem le_sumBy {α} (f : α → Nat) (l : List α) (i : Nat) (y : α) (h : l[i]? = some y) : f y ≤ sumBy f l := by
  induction l generalizing i with
  | nil => simp at h
  | cons a l ih =>
    cases i with
    | zero => simp at h; subst h; simp
    | succ i => simp at h; have := ih i h; simp; omega

theorem le_sumBy_of_mem {α} (f : α → Nat) (l : List α) (y : α) (h : y ∈ l) : f y ≤ sumBy f l := by
  obtain ⟨i, hi⟩ := List.getElem?_of_mem h
  exact le_sumBy f l i y hi

theorem add_le_sumBy {α} (f : α → Nat) (l : List α) (i j : Nat) (x y : α) (hij : i ≠ j)
    (hx : l[i]? = some x) (hy : l[j]? = some y) : f x + f y ≤ sumBy f l := by
  induction l generalizing i j with
  | nil => simp at hx
  | cons a l ih =>
    cases i with
    | zero =>
      cases j with
      | zero => exact absurd rfl hij
      | succ j => simp at hx hy; subst hx; have := le_sumBy f l j y hy; simp; omega
    | succ i =>
      cases j with
      | zero => simp at hx hy; subst hy; have := le_sumBy f l i x hx; simp; omega
      | succ j => simp at hx hy; have := ih i j (by omega) hx hy; simp; omega

theorem sumBy_eq_zero {α} (f : α → Nat) (l : List α) : sumBy f l = 0 ↔ ∀ x ∈ l, f x = 0 := by
  induction l with
  | nil => simp
  | cons a l ih => simp [ih]

theorem sumBy_pos {α} (f : α → Nat) (l : List α) (h : 0 < sumBy f l) : ∃ x ∈ l, 0 < f x := by
  refine Classical.byContradiction fun hn => ?_
  have : sumBy f l = 0 := (sumBy_eq_zero f l).2 (fun x hx => by
    refine Classical.byContradiction fun h0 => hn ⟨x, hx, by omega⟩)
  omega

theorem sumBy_add {α} (f g : α → Nat) (l : List α) : sumBy (fun x => f x + g x) l = sumBy f l + sumBy g l := by
  induction l with
  | nil => simp
  | cons a l ih => simp [ih]; omega

/-- membership after `set` -/
theorem mem_set {α} {l : List α} {i : Nat} {x y : α} (h : y ∈ l.set i x) : y = x ∨ y ∈ l := by
  rcases List.mem_or_eq_of_mem_set h with h | h
  · exact .inr h
  · exact .inl h

end Verif.Common
