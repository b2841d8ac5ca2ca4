import Verif.DoublyLinkedList.Spec
set_option linter.unusedSimpArgs false
namespace Verif.DoublyLinkedList

/-- `xs` are linked consecutively, the first one's prior is `p`, the last one's next is `n`. -/
def Linked (h : Heap) (p : Option Nat) : List Nat → Option Nat → Prop
  | [], _ => True
  | x :: xs, n => (h x).prior = p ∧ (h x).next = (xs.head?.or n) ∧ Linked h (some x) xs n

theorem linked_append (h : Heap) (p n : Option Nat) (xs ys : List Nat) :
    Linked h p (xs ++ ys) n ↔ Linked h p xs (ys.head?.or n) ∧ Linked h (xs.getLast?.or p) ys n := by
  induction xs generalizing p with
  | nil => simp [Linked]
  | cons x xs ih =>
    simp only [List.cons_append, Linked, ih]
    cases xs with
    | nil => simp [Linked, and_assoc]
    | cons y ys' =>
      simp [Linked, and_assoc, List.getLast?_cons]

theorem linked_congr {h h' : Heap} {xs : List Nat} (hh : ∀ x ∈ xs, h' x = h x) {p n} :
    Linked h p xs n → Linked h' p xs n := by
  induction xs generalizing p with
  | nil => simp [Linked]
  | cons x xs ih =>
    intro ⟨h1, h2, h3⟩
    refine ⟨?_, ?_, ih (fun y hy => hh y (by simp [hy])) h3⟩ <;>
      rw [hh x (by simp)] <;> assumption

structure Rep (h : Heap) (l : DList) (xs : List Nat) : Prop where
  first : l.first = xs.head?
  last : l.last = xs.getLast?
  linked : Linked h none xs none
  nodup : xs.Nodup

theorem rep_congr {h h' : Heap} {l xs} (hh : ∀ x ∈ xs, h' x = h x) (r : Rep h l xs) : Rep h' l xs :=
  ⟨r.first, r.last, linked_congr hh r.linked, r.nodup⟩

structure Rel (w : World) (A : Abs) : Prop where
  rep : ∀ l, Rep w.heap (w.lists l) (A l)
  disj : ∀ l m x, x ∈ A l → x ∈ A m → l = m
  free : ∀ x, (∀ l, x ∉ A l) → w.heap x = {}


theorem eq_nil_or_snoc (xs : List Nat) : xs = [] ∨ ∃ ys a, xs = ys ++ [a] := by
  rcases List.eq_nil_or_concat xs with h | ⟨a, ys, h⟩
  · exact .inl h
  · exact .inr ⟨a, ys, by simpa using h⟩

theorem rel_update {w : World} {A : Abs} (r : Rel w A) (l : Nat) (h' : Heap) (d : DList) (ys : List Nat)
    (hrep : Rep h' d ys)
    (hframe : ∀ x, x ∉ A l → x ∉ ys → h' x = w.heap x)
    (hnew : ∀ x ∈ ys, x ∈ A l ∨ ∀ m, x ∉ A m)
    (hfree : ∀ x ∈ A l, x ∉ ys → h' x = {}) :
    Rel { heap := h', lists := setList w.lists l d } (setList A l ys) := by
  constructor
  · intro m
    by_cases hm : m = l
    · simp [setList, hm, hrep]
    · simp only [setList, hm, if_false]
      refine rep_congr ?_ (r.rep m)
      intro x hx
      refine hframe x (fun h => hm (r.disj _ _ _ hx h)) (fun h => ?_)
      rcases hnew x h with h | h
      · exact hm (r.disj _ _ _ hx h)
      · exact h _ hx
  · intro m n x
    simp only [setList]
    split <;> split <;> intro h1 h2
    · simp_all
    · rename_i a b
      rcases hnew x h1 with h | h
      · exact absurd (r.disj _ _ _ h2 h) b
      · exact absurd h2 (h _)
    · rename_i a b
      rcases hnew x h2 with h | h
      · exact absurd (r.disj _ _ _ h1 h) a
      · exact absurd h1 (h _)
    · exact r.disj _ _ _ h1 h2
  · intro x hx
    have hl : x ∉ ys := by simpa [setList] using hx l
    by_cases hA : x ∈ A l
    · exact hfree x hA hl
    · show h' x = _
      rw [hframe x hA hl]
      refine r.free x (fun m => ?_)
      by_cases hm : m = l
      · simpa [hm] using hA
      · simpa [setList, hm] using hx m

theorem pushBack_rep {h l xs e} (r : Rep h l xs) (he : e ∉ xs) :
    Rep (pushBack h l e).1 (pushBack h l e).2 (xs ++ [e]) ∧
    ∀ x, x ∉ xs → x ≠ e → (pushBack h l e).1 x = h x := by
  obtain ⟨r1, r2, r3, r4⟩ := r
  rcases eq_nil_or_snoc xs with rfl | ⟨ys, a, rfl⟩
  · simp at r1 r2
    simp only [pushBack, r2]
    refine ⟨⟨?_, ?_, ?_, ?_⟩, ?_⟩ <;> simp_all [Linked, Heap.setNext, Heap.setPrior, Heap.set]
  · simp at r1 r2 he r4
    simp only [linked_append] at r3
    simp only [pushBack, r2]
    refine ⟨⟨?_, ?_, ?_, ?_⟩, ?_⟩
    · cases ys <;> simp_all
    · simp
    · simp only [linked_append]
      refine ⟨⟨linked_congr ?_ r3.1, ?_⟩, ?_⟩ <;>
        simp_all [Linked, Heap.setNext, Heap.setPrior, Heap.set]
      all_goals grind
    · grind
    · intro x; simp_all [Linked, Heap.setNext, Heap.setPrior, Heap.set]

theorem insertFront_rep {h l xs e} (r : Rep h l xs) (he : e ∉ xs) :
    Rep (insertFront h l e).1 (insertFront h l e).2 (e :: xs) ∧
    ∀ x, x ∉ xs → x ≠ e → (insertFront h l e).1 x = h x := by
  obtain ⟨r1, r2, r3, r4⟩ := r
  cases xs with
  | nil =>
    simp at r1 r2
    simp only [insertFront, r1]
    refine ⟨⟨?_, ?_, ?_, ?_⟩, ?_⟩ <;> simp_all [Linked, Heap.setNext, Heap.setPrior, Heap.set]
  | cons a ys =>
    simp at r1 r2 he r4
    simp only [insertFront, r1]
    refine ⟨⟨?_, ?_, ?_, ?_⟩, ?_⟩
    · simp
    · simp [r2, List.getLast?_cons]
    · refine ⟨?_, ?_, ?_, ?_, linked_congr ?_ r3.2.2⟩
      all_goals simp_all [Linked, Heap.setNext, Heap.setPrior, Heap.set]
      all_goals try grind
    · grind
    · intro x; simp_all [Linked, Heap.setNext, Heap.setPrior, Heap.set]

theorem popBack_rep {h l xs} (r : Rep h l xs) :
    Rep (popBack h l).1 (popBack h l).2.1 xs.dropLast ∧ (popBack h l).2.2 = xs.getLast? ∧
    (∀ x, x ∉ xs → (popBack h l).1 x = h x) ∧
    (∀ x ∈ xs, x ∉ xs.dropLast → (popBack h l).1 x = {}) := by
  obtain ⟨r1, r2, r3, r4⟩ := r
  rcases eq_nil_or_snoc xs with rfl | ⟨ys, a, rfl⟩
  · simp at r1 r2
    simp only [popBack, r2]
    refine ⟨⟨?_, ?_, ?_, ?_⟩, ?_⟩ <;> simp_all [Linked]
  · rcases eq_nil_or_snoc ys with rfl | ⟨zs, b, rfl⟩
    · simp [Linked] at r1 r2 r3
      simp only [popBack, r2, r3]
      refine ⟨⟨?_, ?_, ?_, ?_⟩, ?_, ?_, ?_⟩ <;> simp_all [Linked, Heap.setNext, Heap.setPrior, Heap.set]
    · simp only [linked_append, Linked] at r3
      simp at r1 r2 r4 r3
      obtain ⟨⟨q1, q2⟩, q3, q4⟩ := r3
      simp only [popBack, r2, q3]
      have hd : (zs ++ [b] ++ [a]).dropLast = zs ++ [b] := List.dropLast_concat ..
      refine ⟨⟨?_, ?_, ?_, ?_⟩, ?_, ?_, ?_⟩
      · rw [hd]; simp_all
      · simp
      · rw [hd]; simp only [linked_append]
        refine ⟨linked_congr ?_ q1, ?_⟩
        all_goals simp_all [Linked, Heap.setNext, Heap.setPrior, Heap.set]
        all_goals try grind
      · simp; grind
      · simp
      · intro x; simp_all [Linked, Heap.setNext, Heap.setPrior, Heap.set]
      · simp_all [Linked, Heap.setNext, Heap.setPrior, Heap.set]
        try grind

theorem popFront_rep {h l xs} (r : Rep h l xs) :
    Rep (popFront h l).1 (popFront h l).2.1 xs.tail ∧ (popFront h l).2.2 = xs.head? ∧
    (∀ x, x ∉ xs → (popFront h l).1 x = h x) ∧
    (∀ x ∈ xs, x ∉ xs.tail → (popFront h l).1 x = {}) := by
  obtain ⟨r1, r2, r3, r4⟩ := r
  rcases xs with _ | ⟨a, _ | ⟨b, ys⟩⟩
  · simp at r1 r2
    simp only [popFront, r1]
    refine ⟨⟨?_, ?_, ?_, ?_⟩, ?_⟩ <;> simp_all [Linked]
  · simp [Linked] at r1 r2 r3
    simp only [popFront, r1, r3]
    refine ⟨⟨?_, ?_, ?_, ?_⟩, ?_, ?_, ?_⟩ <;> simp_all [Linked, Heap.setNext, Heap.setPrior, Heap.set]
  · simp only [Linked] at r3
    simp at r1 r2 r4 r3
    obtain ⟨q1, q2, q3, q4, q5⟩ := r3
    simp only [popFront, r1, q2]
    refine ⟨⟨?_, ?_, ?_, ?_⟩, ?_, ?_, ?_⟩
    · simp
    · simp [r2, List.getLast?_cons]
    · refine ⟨?_, ?_, linked_congr ?_ q5⟩
      all_goals simp_all [Linked, Heap.setNext, Heap.setPrior, Heap.set]
      all_goals try grind
    · simp; grind
    · simp
    · intro x; simp_all [Linked, Heap.setNext, Heap.setPrior, Heap.set]
    · simp_all [Linked, Heap.setNext, Heap.setPrior, Heap.set]
      try grind

theorem insBefore_split {w e : Nat} {as bs : List Nat} (h : w ∉ as) :
    insBefore w e (as ++ w :: bs) = as ++ e :: w :: bs := by
  induction as with
  | nil => simp [insBefore]
  | cons a as ih => simp [insBefore]; grind

theorem insertBefore_rep {h l xs w e} (r : Rep h l xs) (hw : w ∈ xs) (he : e ∉ xs) :
    ∃ h' l', insertBefore h l w e = some (h', l') ∧ Rep h' l' (insBefore w e xs) ∧
    (∀ x, x ∉ xs → x ≠ e → h' x = h x) ∧ ∀ x, x ∈ insBefore w e xs ↔ x = e ∨ x ∈ xs := by
  obtain ⟨as, bs, rfl⟩ := List.append_of_mem hw
  obtain ⟨r1, r2, r3, r4⟩ := r
  have hwa : w ∉ as := by grind
  rw [insBefore_split hwa]
  simp only [linked_append, Linked] at r3
  obtain ⟨q1, q2, q3, q4⟩ := r3
  rcases eq_nil_or_snoc as with rfl | ⟨cs, c, rfl⟩
  · simp at r1 r2 he r4 q2
    refine ⟨((h.setPrior e (h w).prior).setNext e (some w)).setPrior w (some e), { l with first := some e },
       by simp only [insertBefore, r1, if_true], ⟨?_, ?_, ?_, ?_⟩, ?_, ?_⟩
    · simp
    · simp [List.getLast?_cons, r2]
    · refine ⟨?_, ?_, ?_, ?_, linked_congr ?_ q4⟩
      all_goals simp_all [Linked, Heap.setNext, Heap.setPrior, Heap.set]
      all_goals try grind
    · simp; grind
    · intro x; simp_all [Linked, Heap.setNext, Heap.setPrior, Heap.set]
    · simp
  · simp [linked_append, Linked] at r1 r2 he r4 q2 q1
    have hf : l.first ≠ some w := by
      rw [r1]; cases cs <;> simp <;> grind
    refine ⟨(((h.setPrior e (h w).prior).setNext e (some w)).setPrior w (some e)).setNext c (some e), l,
       ?_, ⟨?_, ?_, ?_, ?_⟩, ?_, ?_⟩
    · have : (((h.setPrior e (h w).prior).setNext e (some w)).setPrior w (some e) e).prior = some c := by
        simp_all [Linked, Heap.setNext, Heap.setPrior, Heap.set]
      simp only [insertBefore, hf, if_false, this]
    · simp [r1]
    · simp [List.getLast?_cons, r2]
    · simp only [linked_append]
      refine ⟨⟨linked_congr ?_ q1.1, ?_⟩, ?_, ?_, ?_, ?_, linked_congr ?_ q4⟩
      all_goals simp_all [Linked, Heap.setNext, Heap.setPrior, Heap.set]
      all_goals try grind
    · simp; grind
    · intro x; simp_all [Linked, Heap.setNext, Heap.setPrior, Heap.set]
    · simp; grind

theorem remove_rep {h l xs e} (r : Rep h l xs) (he : e ∈ xs) :
    Rep (remove h l e).1 (remove h l e).2 (xs.filter (· ≠ e)) ∧
    (∀ x, x ∉ xs → (remove h l e).1 x = h x) ∧ (remove h l e).1 e = {} := by
  obtain ⟨as, bs, rfl⟩ := List.append_of_mem he
  obtain ⟨r1, r2, r3, r4⟩ := r
  have hf : (as ++ e :: bs).filter (· ≠ e) = as ++ bs := by
    have h1 : as.filter (· ≠ e) = as := by rw [List.filter_eq_self]; grind
    have h2 : bs.filter (· ≠ e) = bs := by rw [List.filter_eq_self]; grind
    rw [List.filter_append, List.filter_cons, h1, h2]; simp
  rw [hf]
  clear hf he
  simp only [linked_append, Linked] at r3
  obtain ⟨q1, q2, q3, q4⟩ := r3
  rcases eq_nil_or_snoc as with rfl | ⟨cs, c, rfl⟩
  · cases bs with
    | nil =>
      simp at r1 r2 r4 q2 q3
      simp only [remove, q2]
      refine ⟨⟨?_, ?_, ?_, ?_⟩, ?_, ?_⟩
      all_goals simp_all [Linked, Heap.setNext, Heap.setPrior, Heap.set]
    | cons b bs =>
      simp [Linked] at r1 r2 r4 q2 q3 q4
      simp only [remove, q2]
      refine ⟨⟨?_, ?_, ?_, ?_⟩, ?_, ?_⟩
      · simp_all [Linked, Heap.setNext, Heap.setPrior, Heap.set]
      · simp_all [Linked, Heap.setNext, Heap.setPrior, Heap.set, List.getLast?_cons]
      · simp_all [Linked, Heap.setNext, Heap.setPrior, Heap.set]
        refine ⟨?_, linked_congr ?_ q4.2.2⟩ <;> (try simp only [Heap.set]) <;> grind
      · simp; grind
      · simp_all [Linked, Heap.setNext, Heap.setPrior, Heap.set]
      · simp_all [Linked, Heap.setNext, Heap.setPrior, Heap.set]
        try grind
  · cases bs with
    | nil =>
      simp [linked_append, Linked] at r1 r2 r4 q2 q3 q1
      simp only [remove, q2]
      refine ⟨⟨?_, ?_, ?_, ?_⟩, ?_, ?_⟩
      · simp_all [Linked, Heap.setNext, Heap.setPrior, Heap.set]
      · simp_all [Linked, Heap.setNext, Heap.setPrior, Heap.set]
      · simp_all [Linked, Heap.setNext, Heap.setPrior, Heap.set, linked_append]
        refine ⟨linked_congr ?_ q1.1, ?_⟩ <;> (try simp only [Heap.set]) <;> grind
      · simp; grind
      · simp_all [Linked, Heap.setNext, Heap.setPrior, Heap.set]
      · simp_all [Linked, Heap.setNext, Heap.setPrior, Heap.set]
        try grind
    | cons b bs =>
      simp [linked_append, Linked] at r1 r2 r4 q2 q3 q4 q1
      have hn : ((h.setPrior e none) e).next = some b := by simp_all [Heap.setPrior, Heap.set]
      simp only [remove, q2, hn]
      refine ⟨⟨?_, ?_, ?_, ?_⟩, ?_, ?_⟩
      · simp_all
      · simp_all [List.getLast?_cons]
      · simp only [linked_append]
        refine ⟨⟨linked_congr ?_ q1.1, ?_⟩, ?_, ?_, linked_congr ?_ q4.2.2⟩
        all_goals simp_all [Linked, Heap.setNext, Heap.setPrior, Heap.set, linked_append]
        all_goals try grind
      · simp; grind
      · simp_all [Linked, Heap.setNext, Heap.setPrior, Heap.set]
      · simp_all [Linked, Heap.setNext, Heap.setPrior, Heap.set]
        try grind

theorem pushBackList_rep {h l o xs ys} (r : Rep h l xs) (s : Rep h o ys) (hd : ∀ x ∈ xs, x ∉ ys) :
    Rep (pushBackList h l o).1 (pushBackList h l o).2.1 (xs ++ ys) ∧ (pushBackList h l o).2.2 = {} ∧
    ∀ x, x ∉ xs → x ∉ ys → (pushBackList h l o).1 x = h x := by
  obtain ⟨r1, r2, r3, r4⟩ := r
  obtain ⟨s1, s2, s3, s4⟩ := s
  cases ys with
  | nil =>
    simp at s1 s2
    simp only [pushBackList, s1]
    refine ⟨⟨?_, ?_, ?_, ?_⟩, ?_, ?_⟩
    · simpa using r1
    · simpa using r2
    · simpa using r3
    · simpa using r4
    · cases o; simp_all
    · simp
  | cons b bs =>
    simp [Linked] at s1 s2 s3 s4
    rcases eq_nil_or_snoc xs with rfl | ⟨cs, c, rfl⟩
    · simp at r1 r2
      simp only [pushBackList, s1, r2]
      refine ⟨⟨?_, ?_, ?_, ?_⟩, ?_, ?_⟩ <;> simp_all [Linked]
    · simp [linked_append, Linked] at r1 r2 r3 r4 hd
      simp only [pushBackList, s1, r2]
      refine ⟨⟨?_, ?_, ?_, ?_⟩, ?_, ?_⟩
      · simp_all
      · simp_all [List.getLast?_cons]
      · simp only [linked_append]
        refine ⟨⟨linked_congr ?_ r3.1, ?_⟩, ?_, ?_, linked_congr ?_ s3.2.2⟩
        all_goals simp_all [Linked, Heap.setNext, Heap.setPrior, Heap.set, linked_append]
        all_goals try grind
      · simp; grind
      · simp
      · simp_all [Linked, Heap.setNext, Heap.setPrior, Heap.set]

theorem step_rel {w : World} {A : Abs} (r : Rel w A) (op : Op) (ha : Allowed A op) :
    ∃ w', step w op = some (w', (specStep A op).2) ∧ Rel w' (specStep A op).1 := by
  cases op with
  | pushBack l e =>
    have := pushBack_rep (r.rep l) (ha l)
    refine ⟨_, rfl, rel_update r l _ _ _ this.1 ?_ ?_ ?_⟩
    · intro x h1 h2; exact this.2 x h1 (by grind)
    · intro x hx; simp at hx; rcases hx with h | h; exact .inl h; subst h; exact .inr ha
    · grind
  | insertFront l e =>
    have := insertFront_rep (r.rep l) (ha l)
    refine ⟨_, rfl, rel_update r l _ _ _ this.1 ?_ ?_ ?_⟩
    · intro x h1 h2; exact this.2 x h1 (by grind)
    · intro x hx; simp at hx; rcases hx with h | h; subst h; exact .inr ha; exact .inl h
    · grind
  | popBack l =>
    have := popBack_rep (r.rep l)
    refine ⟨_, by simp only [step, specStep, this.2.1], rel_update r l _ _ _ this.1 ?_ ?_ ?_⟩
    · intro x h1 h2; exact this.2.2.1 x h1
    · intro x hx; exact .inl (List.dropLast_subset _ hx)
    · exact this.2.2.2
  | popFront l =>
    have := popFront_rep (r.rep l)
    refine ⟨_, by simp only [step, specStep, this.2.1], rel_update r l _ _ _ this.1 ?_ ?_ ?_⟩
    · intro x h1 h2; exact this.2.2.1 x h1
    · intro x hx; exact .inl (List.mem_of_mem_tail hx)
    · exact this.2.2.2
  | insertBefore l p e =>
    obtain ⟨h', l', h1, h2, h3, h4⟩ := insertBefore_rep (r.rep l) ha.1 (ha.2 l)
    refine ⟨{ heap := h', lists := setList w.lists l l' }, by simp only [step, specStep, h1], rel_update r l _ _ _ h2 ?_ ?_ ?_⟩
    · intro x q1 q2; exact h3 x q1 (by grind)
    · intro x hx; rw [h4] at hx; rcases hx with h | h; subst h; exact .inr ha.2; exact .inl h
    · intro x q1 q2; exact absurd ((h4 x).2 (.inr q1)) q2
  | remove l e =>
    have := remove_rep (r.rep l) ha
    refine ⟨_, rfl, rel_update r l _ _ _ this.1 ?_ ?_ ?_⟩
    · intro x h1 h2; exact this.2.1 x h1
    · intro x hx; simp at hx; exact .inl hx.1
    · intro x h1 h2; have : x = e := by simpa [h1] using h2
      subst this; exact (remove_rep (r.rep l) ha).2.2
  | flush d s =>
    obtain ⟨ha1, ha2⟩ := ha
    refine ⟨_, rfl, ?_, ?_, ?_⟩
    · intro m
      have h0 : Rep w.heap {} [] := ⟨rfl, rfl, trivial, List.nodup_nil⟩
      have := r.rep m
      have := r.rep s
      simp only [flush, setList, specStep]
      grind
    · intro l m x
      have := r.disj
      simp only [flush, setList, specStep]
      grind
    · intro x hx
      refine r.free x (fun m => ?_)
      have h1 := hx m
      have h2 := hx d
      simp only [flush, setList, specStep] at h1 h2
      grind
  | pushBackList l o =>
    by_cases hlo : l = o
    · refine ⟨w, by simp [step, specStep, hlo], by simpa [specStep, hlo] using r⟩
    · have := pushBackList_rep (r.rep l) (r.rep o) (fun x h1 h2 => hlo (r.disj _ _ _ h1 h2))
      refine ⟨{ heap := (pushBackList w.heap (w.lists l) (w.lists o)).1,
                lists := setList (setList w.lists l (pushBackList w.heap (w.lists l) (w.lists o)).2.1) o {} },
              by simp only [step, specStep, hlo, if_false, this.2.1], ?_, ?_, ?_⟩
      · intro m
        have h0 : Rep (pushBackList w.heap (w.lists l) (w.lists o)).1 {} [] := ⟨rfl, rfl, trivial, List.nodup_nil⟩
        simp only [specStep, hlo, if_false, setList]
        by_cases h1 : m = o
        · simpa [h1] using h0
        · by_cases h2 : m = l
          · simp [h1, h2, this.1, hlo]
          · simp only [h1, h2, if_false]
            refine rep_congr (fun x hx => this.2.2 x ?_ ?_) (r.rep m)
            · exact fun h => h2 (r.disj _ _ _ hx h)
            · exact fun h => h1 (r.disj _ _ _ hx h)
      · intro a b x
        have := r.disj
        simp only [specStep, hlo, if_false, setList]
        grind
      · intro x hx
        have h1 := hx l
        have : ∀ m, x ∉ A m := by
          intro m
          have := hx m
          simp only [specStep, hlo, if_false, setList] at this h1
          grind
        show (pushBackList w.heap (w.lists l) (w.lists o)).1 x = {}
        rw [(pushBackList_rep (r.rep l) (r.rep o) (fun x h1 h2 => hlo (r.disj _ _ _ h1 h2))).2.2 x (this l) (this o)]
        exact r.free x this

theorem run_rel {w : World} {A : Abs} (r : Rel w A) (ops : List Op) (ha : AllowedRun A ops) :
    ∃ w', run w ops = some (w', (specRun A ops).2) ∧ Rel w' (specRun A ops).1 := by
  induction ops generalizing w A with
  | nil => exact ⟨w, rfl, r⟩
  | cons op ops ih =>
    obtain ⟨w1, h1, r1⟩ := step_rel r op ha.1
    obtain ⟨w2, h2, r2⟩ := ih r1 ha.2
    refine ⟨w2, ?_, r2⟩
    simp only [run, h1, h2, specRun]

theorem rel_init : Rel {} (fun _ => []) :=
  ⟨fun _ => ⟨rfl, rfl, trivial, List.nodup_nil⟩, by simp, fun _ _ => rfl⟩

theorem walkNext_linked {h p xs} (n : Nat) (hl : Linked h p xs none) (hn : xs.length ≤ n) :
    walkNext h n xs.head? = xs := by
  induction xs generalizing p n with
  | nil => cases n <;> rfl
  | cons x xs ih =>
    cases n with
    | zero => simp at hn
    | succ n =>
      simp at hn
      obtain ⟨h1, h2, h3⟩ := hl
      simp only [List.head?_cons, walkNext, h2, Option.or_none, ih n h3 hn]

theorem walkPrior_linked {h xs q} (n : Nat) (hl : Linked h none xs q) (hn : xs.length ≤ n) :
    walkPrior h n xs.getLast? = xs.reverse := by
  induction n generalizing xs q with
  | zero => cases xs <;> simp_all [walkPrior]
  | succ n ih =>
    rcases eq_nil_or_snoc xs with rfl | ⟨ys, a, rfl⟩
    · rfl
    · simp only [linked_append, Linked] at hl
      simp at hn
      simp [walkPrior, hl.2.1, ih hl.1 hn]
end Verif.DoublyLinkedList
