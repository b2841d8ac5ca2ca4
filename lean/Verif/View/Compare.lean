import Verif.View.Lemmas
/-!
# C17 – comparison of strings

The specification is the lexicographic order `<` on `List Int` of Lean's library.
-/
namespace Verif.View

/-- the sign of `d` reports the lexicographic comparison of `t` with `u` -/
def Reports (d : Int) (t u : List Int) : Prop := (d < 0 ↔ t < u) ∧ (d = 0 ↔ t = u) ∧ (0 < d ↔ u < t)

/-- `diff` is exact on the units of both texts (no overflow, no wrap-around) -/
def Exact (diff : Int → Int → Option Int) (f : Int → Int) (t u : List Int) : Prop :=
  ∀ x ∈ t, ∀ y ∈ u, diff (f x) (f y) = some (f x - f y)

theorem not_lt_nil (t : List Int) : ¬ t < [] := by intro h; cases h
theorem nil_lt {t : List Int} (h : t ≠ []) : ([] : List Int) < t := by
  cases t with
  | nil => exact absurd rfl h
  | cons a t => exact List.Lex.nil

theorem reports_cons {x y : Int} {t u : List Int} {d : Int} (h : Reports d t u) (hxy : x = y) : Reports d (x :: t) (y :: u) := by
  subst hxy
  obtain ⟨h1, h2, h3⟩ := h
  refine ⟨h1.trans ?_, h2.trans (by simp), h3.trans ?_⟩
  · constructor
    · exact fun h => List.Lex.cons h
    · intro h; cases h with
      | rel h => exact absurd h (Int.lt_irrefl _)
      | cons h => exact h
  · constructor
    · exact fun h => List.Lex.cons h
    · intro h; cases h with
      | rel h => exact absurd h (Int.lt_irrefl _)
      | cons h => exact h

theorem reports_diff {x y : Int} {t u : List Int} (hxy : x ≠ y) : Reports (x - y) (x :: t) (y :: u) := by
  refine ⟨⟨fun h => List.Lex.rel (by omega), fun h => ?_⟩, ⟨fun h => absurd (by omega) hxy, fun h => ?_⟩, ⟨fun h => List.Lex.rel (by omega), fun h => ?_⟩⟩
  · cases h with
    | rel h => omega
    | cons h => exact absurd rfl hxy
  · simp at h; exact absurd h.1 hxy
  · cases h with
    | rel h => omega
    | cons h => exact absurd rfl hxy

/-- the comparison loop against a general continuation -/
theorem cmpLoop_spec (diff : Int → Int → Option Int) (f : Int → Int) (t u : List Int) (a b : Nat → Option Int) (i n : Nat)
    (ha : ∀ j, j < n → a (i + j) = t[j]?) (hb : ∀ j, j < n → b (i + j) = u[j]?)
    (ht : n ≤ t.length) (hu : n ≤ u.length) (hd : Exact diff f t u) :
    (∃ d, cmpLoop diff f a b i n = some (some d) ∧ Reports d (t.map f) (u.map f)) ∨
    (cmpLoop diff f a b i n = some none ∧ (t.map f).take n = (u.map f).take n ∧
      ∀ d, Reports d ((t.drop n).map f) ((u.drop n).map f) → Reports d (t.map f) (u.map f)) := by
  induction n generalizing i t u with
  | zero => exact .inr ⟨rfl, by simp, fun d hd => by simpa using hd⟩
  | succ n ih =>
    cases t with
    | nil => simp at ht
    | cons x t =>
    cases u with
    | nil => simp at hu
    | cons y u =>
    have h1 := ha 0 (by omega)
    have h2 := hb 0 (by omega)
    simp at h1 h2
    have hxy := hd x (by simp) y (by simp)
    by_cases he : f x = f y
    · have hz : f x - f y = 0 := by omega
      rw [hz] at hxy
      have step : cmpLoop diff f a b i (n + 1) = cmpLoop diff f a b (i + 1) n := by
        simp [cmpLoop, h1, h2, hxy]
      rw [step]
      rcases ih t u (i + 1)
        (fun j hj => by have := ha (j + 1) (by omega); simpa [Nat.add_assoc, Nat.add_comm 1 j] using this)
        (fun j hj => by have := hb (j + 1) (by omega); simpa [Nat.add_assoc, Nat.add_comm 1 j] using this)
        (by simpa using ht) (by simpa using hu) (fun x hx y hy => hd x (by simp [hx]) y (by simp [hy])) with ⟨d, g1, g2⟩ | ⟨g1, g2, g3⟩
      · exact .inl ⟨d, g1, by simpa using reports_cons g2 he⟩
      · refine .inr ⟨g1, by simp [g2, he], fun d hd => ?_⟩
        simp only [List.drop_succ_cons] at hd
        have := reports_cons (g3 d hd) he
        simpa using this
    · have hnz : f x - f y ≠ 0 := by omega
      refine .inl ⟨f x - f y, ?_, by simpa using reports_diff he⟩
      simp [cmpLoop, h1, h2, hxy, hnz]

/-- general form: `Compare`/`CompareI` of two views, when the subtraction is exact on the units -/
theorem compareView_spec (diff : Int → Int → Option Int) (f : Int → Int) (v w : View Int) (hv : v.WF) (hw : w.WF)
    (hd : Exact diff f v.text w.text) :
    ∃ d, compareView diff f v w = some d ∧ Reports d (v.text.map f) (w.text.map f) := by
  have lv := text_length hv
  have lw := text_length hw
  unfold compareView
  rcases cmpLoop_spec diff f v.text w.text v.rd w.rd 0 (min v.len w.len)
    (fun j hj => by rw [Nat.zero_add]; exact rd_eq (by omega))
    (fun j hj => by rw [Nat.zero_add]; exact rd_eq (by omega)) (by omega) (by omega) hd with ⟨d, g1, g2⟩ | ⟨g1, g2, g3⟩
  · exact ⟨d, by simp [g1], g2⟩
  · rw [g1]
    refine ⟨_, rfl, g3 _ ?_⟩
    by_cases h1 : v.len > w.len
    · rw [if_pos h1]
      have e1 : w.text.drop (min v.len w.len) = [] := List.drop_eq_nil_of_le (by omega)
      have e2 : (v.text.drop (min v.len w.len)).map f ≠ [] := by
        intro h
        have := congrArg List.length h
        simp at this; omega
      rw [e1]
      refine ⟨⟨by omega, fun h => absurd h (not_lt_nil _)⟩, ⟨by omega, fun h => absurd h e2⟩, ⟨fun _ => nil_lt e2, fun _ => by omega⟩⟩
    · rw [if_neg h1]
      by_cases h2 : v.len < w.len
      · rw [if_pos h2]
        have e1 : v.text.drop (min v.len w.len) = [] := List.drop_eq_nil_of_le (by omega)
        have e2 : (w.text.drop (min v.len w.len)).map f ≠ [] := by
          intro h
          have := congrArg List.length h
          simp at this; omega
        rw [e1]
        refine ⟨⟨fun _ => nil_lt e2, fun _ => by omega⟩, ⟨by omega, fun h => absurd h.symm e2⟩, ⟨by omega, fun h => absurd h (not_lt_nil _)⟩⟩
      · rw [if_neg h2]
        have e1 : v.text.drop (min v.len w.len) = [] := List.drop_eq_nil_of_le (by omega)
        have e2 : w.text.drop (min v.len w.len) = [] := List.drop_eq_nil_of_le (by omega)
        rw [e1, e2]
        exact ⟨⟨by omega, fun h => absurd h (not_lt_nil _)⟩, ⟨fun _ => rfl, fun _ => rfl⟩, ⟨by omega, fun h => absurd h (not_lt_nil _)⟩⟩

/-- comparison with a C string, when no unit of either text is NUL or negative -/
theorem compareSz_spec (diff : Int → Int → Option Int) (f : Int → Int) (v : View Int) (hv : v.WF) (u : List Int)
    (hf : ∀ x, 0 < x → 0 < f x) (hf0 : f 0 = 0)
    (hd : Exact diff f v.text (u ++ [0])) (hd0 : ∀ y ∈ u ++ [0], diff 0 y = some (0 - y))
    (hpv : ∀ x ∈ v.text, 0 < x) (hpu : ∀ y ∈ u, 0 < y) :
    ∃ d, compareSz diff f v (some (u ++ [0])) = some d ∧ Reports d (v.text.map f) (u.map f) := by
  have lv := text_length hv
  -- `Reports` for the texts follows from `Reports` for the texts with terminators
  unfold compareSz
  simp only
  by_cases hlen : v.len ≤ u.length
  · -- the terminator of the C string is not reached inside the loop
    rcases cmpLoop_spec diff f v.text u v.rd (fun i => (u ++ [0])[i]?) 0 v.len
      (fun j hj => by rw [Nat.zero_add]; exact rd_eq hj)
      (fun j hj => by simp only [Nat.zero_add]; rw [List.getElem?_append_left (by omega)])
      (by omega) hlen (fun x hx y hy => hd x hx y (by simp [hy])) with ⟨d, g1, g2⟩ | ⟨g1, g2, g3⟩
    · exact ⟨d, by simp [g1], g2⟩
    · rw [g1]
      have e1 : v.text.drop v.len = [] := List.drop_eq_nil_of_le (by omega)
      rw [e1] at g3
      by_cases he : v.len = u.length
      · have e2 : (u ++ [0])[v.len]? = some 0 := by rw [he]; simp
        refine ⟨0, by simp [e2, hd0 0 (by simp)], g3 0 ?_⟩
        rw [he, List.drop_length]
        exact ⟨⟨by omega, fun h => absurd h (not_lt_nil _)⟩, ⟨fun _ => rfl, fun _ => rfl⟩, ⟨by omega, fun h => absurd h (not_lt_nil _)⟩⟩
      · have hlt : v.len < u.length := by omega
        have e2 : (u ++ [0])[v.len]? = some u[v.len] := by
          rw [List.getElem?_append_left hlt, List.getElem?_eq_getElem hlt]
        have hm : u[v.len] ∈ u := List.getElem_mem hlt
        have hp := hpu _ hm
        refine ⟨0 - u[v.len], by simp only [e2]; exact hd0 _ (by simp [hm]), g3 _ ?_⟩
        have e3 : (u.drop v.len).map f ≠ [] := by
          intro h
          have := congrArg List.length h
          simp at this; omega
        refine ⟨⟨fun _ => nil_lt e3, fun _ => by omega⟩, ⟨by omega, fun h => absurd h.symm e3⟩, ⟨by omega, fun h => absurd h (not_lt_nil _)⟩⟩
  · -- the view is longer than the C string: the loop stops at the terminator at the latest
    have hlt : u.length < v.text.length := by omega
    rcases cmpLoop_spec diff f (v.text.take (u.length + 1)) (u ++ [0]) v.rd (fun i => (u ++ [0])[i]?) 0 (u.length + 1)
      (fun j hj => by rw [Nat.zero_add, rd_eq (by omega), List.getElem?_take, if_pos hj])
      (fun j hj => by simp only [Nat.zero_add])
      (by simp; omega) (by simp) (fun x hx y hy => hd x (List.mem_of_mem_take hx) y hy) with ⟨d, g1, g2⟩ | ⟨g1, g2, g3⟩
    · refine ⟨d, ?_, ?_⟩
      · have : ∀ (m : Nat) (i k : Nat), cmpLoop diff f v.rd (fun i => (u ++ [0])[i]?) i m = some (some d) →
            cmpLoop diff f v.rd (fun i => (u ++ [0])[i]?) i (m + k) = some (some d) := by
          intro m
          induction m with
          | zero => intro i k h; simp [cmpLoop] at h
          | succ m ih =>
            intro i k h
            rw [Nat.succ_add]
            rw [cmpLoop] at h ⊢
            split at h
            · split at h
              · simp at h
              · split at h
                · rename_i hne; rw [if_pos hne]; exact h
                · rename_i hne; rw [if_neg hne]; exact ih _ _ h
            · simp at h
        have := this (u.length + 1) 0 (v.len - (u.length + 1)) g1
        rw [show u.length + 1 + (v.len - (u.length + 1)) = v.len by omega] at this
        simp [this]
      · -- transfer from the texts with terminators to the texts
        obtain ⟨k1, k2, k3⟩ := g2
        have key : ∀ (t u : List Int), u.length < t.length → (∀ x ∈ t, 0 < x) → (∀ y ∈ u, 0 < y) → ∀ d,
            Reports d ((t.take (u.length + 1)).map f) ((u ++ [0]).map f) → Reports d (t.map f) (u.map f) := by
          intro t u
          induction u generalizing t with
          | nil =>
            intro hl hp _ d hr
            cases t with
            | nil => simp at hl
            | cons x t =>
              have hx : 0 < f x := hf x (hp x (by simp))
              simp [hf0] at hr
              obtain ⟨r1, r2, r3⟩ := hr
              have hd0 : 0 < d := r3.2 (List.Lex.rel hx)
              simp
              exact ⟨⟨by omega, fun h => absurd h (not_lt_nil _)⟩, ⟨by omega, by simp⟩, ⟨fun _ => nil_lt (by simp), fun _ => hd0⟩⟩
          | cons y u ih =>
            intro hl hp hq d hr
            cases t with
            | nil => simp at hl
            | cons x t =>
              simp at hr ⊢
              by_cases he : f x = f y
              · refine reports_cons (ih t (by simpa using hl) (fun x hx => hp x (by simp [hx])) (fun y hy => hq y (by simp [hy])) d ?_) he
                obtain ⟨r1, r2, r3⟩ := hr
                rw [he] at r1 r2 r3
                refine ⟨r1.trans ?_, r2.trans (by simp), r3.trans ?_⟩
                · simp [List.cons_lt_cons_iff]
                · simp [List.cons_lt_cons_iff]
              · obtain ⟨r1, r2, r3⟩ := hr
                refine ⟨r1.trans ?_, r2.trans (by simp [he]), r3.trans ?_⟩
                · simp [List.cons_lt_cons_iff, he]
                · have : ¬ f y = f x := fun h => he h.symm
                  simp [List.cons_lt_cons_iff, this]
        exact key v.text u hlt hpv hpu d ⟨k1, k2, k3⟩
    · exfalso
      have : u.length < (v.text.map f).length := by simpa using hlt
      have h1 := congrArg (·[u.length]?) g2
      simp [List.getElem?_take, List.getElem?_eq_getElem hlt, hf0] at h1
      have := hf _ (hpv _ (List.getElem_mem hlt))
      omega

theorem upper_pos (x : Int) (h : 0 < x) : 0 < upper x := by unfold upper; split <;> omega
theorem upper_zero : upper 0 = 0 := by decide

/-- values of a unit type with the subtraction it uses -/
inductive Kind
  /-- 8/16-bit units (promoted to `int`), signed or not -/
  | small
  /-- `char32_t` (Windows) -/
  | u32
  /-- 32-bit `wchar_t` (Linux) -/
  | w32

def Kind.diff : Kind → Int → Int → Option Int
  | .small => diffSmall
  | .u32 => diffU32
  | .w32 => diffW32

/-- For 32-bit units the units have to be below 2^31 (all Unicode scalar values are). -/
def Kind.Ok : Kind → Int → Prop
  | .small, _ => True
  | .u32, x => 0 ≤ x ∧ x < 2147483648
  | .w32, x => 0 ≤ x ∧ x < 2147483648

theorem Kind.exact (k : Kind) (x y : Int) (hx : k.Ok x) (hy : k.Ok y) : k.diff x y = some (x - y) := by
  cases k
  · rfl
  · simp only [Kind.Ok] at hx hy
    simp only [Kind.diff, diffU32]
    congr 1
    omega
  · simp only [Kind.Ok] at hx hy
    simp only [Kind.diff, diffW32]
    rw [if_pos (by omega)]

theorem Kind.ok_upper (k : Kind) (x : Int) (hx : k.Ok x) : k.Ok (upper x) := by
  cases k <;> simp only [Kind.Ok, upper] at * <;> split <;> omega

/-- **C17**, views: for every unit type and every two texts whose 32-bit units are below 2^31 (nothing is required of 8/16-bit units),
`Compare` reports exactly the lexicographic order, `CompareI` the one of the ASCII upper-cased texts; nothing outside the views is read.
Missing from the full claim: 32-bit units from 2^31 on (`C17_fails`). -/
theorem C17_compare_partial (k : Kind) (v w : View Int) (hv : v.WF) (hw : w.WF) (h1 : ∀ x ∈ v.text, k.Ok x) (h2 : ∀ x ∈ w.text, k.Ok x) :
    (∃ d, compareView k.diff id v w = some d ∧ Reports d v.text w.text) ∧
    (∃ d, compareView k.diff upper v w = some d ∧ Reports d (v.text.map upper) (w.text.map upper)) := by
  constructor
  · obtain ⟨d, g1, g2⟩ := compareView_spec k.diff id v w hv hw (fun x hx y hy => k.exact _ _ (h1 x hx) (h2 y hy))
    exact ⟨d, g1, by simpa using g2⟩
  · exact compareView_spec k.diff upper v w hv hw (fun x hx y hy => k.exact _ _ (k.ok_upper _ (h1 x hx)) (k.ok_upper _ (h2 y hy)))

/-- **C17**, comparison with a C string `u` (terminator included in `u ++ [0]`, nothing after it may be read): exact for texts without NUL
and negative units.  Missing: views that contain NUL, signed `char` units (`C17_fails`). -/
theorem C17_compareSz_partial (k : Kind) (v : View Int) (hv : v.WF) (u : List Int)
    (h1 : ∀ x ∈ v.text, 0 < x ∧ k.Ok x) (h2 : ∀ x ∈ u, 0 < x ∧ k.Ok x) :
    (∃ d, compareSz k.diff id v (some (u ++ [0])) = some d ∧ Reports d v.text u) ∧
    (∃ d, compareSz k.diff upper v (some (u ++ [0])) = some d ∧ Reports d (v.text.map upper) (u.map upper)) ∧
    (∃ d, compareSz k.diff id v none = some d ∧ Reports d v.text []) := by
  have ok0 : k.Ok 0 := by cases k <;> simp [Kind.Ok]
  have h2' : ∀ y ∈ u ++ [0], k.Ok y := by
    intro y hy
    simp at hy
    rcases hy with hy | rfl
    · exact (h2 y hy).2
    · exact ok0
  refine ⟨?_, ?_, ?_⟩
  · obtain ⟨d, g1, g2⟩ := compareSz_spec k.diff id v hv u (fun x h => h) rfl (fun x hx y hy => k.exact _ _ (h1 x hx).2 (h2' y hy))
      (fun y hy => k.exact _ _ ok0 (h2' y hy)) (fun x hx => (h1 x hx).1) (fun y hy => (h2 y hy).1)
    exact ⟨d, g1, by simpa using g2⟩
  · exact compareSz_spec k.diff upper v hv u upper_pos upper_zero
      (fun x hx y hy => k.exact _ _ (k.ok_upper _ (h1 x hx).2) (k.ok_upper _ (h2' y hy)))
      (fun y hy => k.exact _ _ ok0 (h2' y hy)) (fun x hx => (h1 x hx).1) (fun y hy => (h2 y hy).1)
  · have lv := text_length hv
    refine ⟨_, rfl, ?_⟩
    by_cases h : v.len = 0
    · have : v.text = [] := List.eq_nil_of_length_eq_zero (by omega)
      simp only [h, this]
      exact ⟨⟨by simp, fun h => absurd h (not_lt_nil _)⟩, by simp, ⟨by simp, fun h => absurd h (not_lt_nil _)⟩⟩
    · have : v.text ≠ [] := by intro h'; rw [h'] at lv; simp at lv; omega
      simp only [h, ne_eq, not_false_eq_true, if_true]
      exact ⟨⟨by omega, fun h => absurd h (not_lt_nil _)⟩, ⟨by omega, fun h => absurd h this⟩, ⟨fun _ => nil_lt this, fun _ => by omega⟩⟩

/-- The upper-casing used by `CompareI` is ASCII upper-casing: it agrees with the library's `Char.toUpper` on every character, and changes no
other value. -/
theorem C17_upper_is_ascii : (∀ c : Char, upper (c.toNat : Int) = (c.toUpper.toNat : Int)) ∧ (∀ x : Int, x < 0 ∨ 0x110000 ≤ x → upper x = x) := by
  constructor
  · intro c
    unfold upper Char.toUpper
    simp only [ge_iff_le, UInt32.le_iff_toNat_le]
    have h : c.toNat = c.val.toNat := rfl
    split
    · rename_i h1
      split
      · rename_i h2
        have e : ((c.val + ('A'.val - 'a'.val)).toNat : Int) = c.toNat - 97 + 65 := by
          rw [UInt32.toNat_add, h]
          have : ('A'.val - 'a'.val).toNat = 4294967264 := by decide
          rw [this]
          rw [h] at h1
          omega
        exact e.symm
      · rename_i h2
        simp at h2
        omega
    · rename_i h1
      split
      · rename_i h2
        simp at h2
        omega
      · rfl
  · intro x hx
    unfold upper
    rw [if_neg (by omega)]

/-- **C17 fails**: (1) `char32_t` unit 0x80000000 compares less than 0; (2) three such strings are cyclically ordered (no order at all);
(3) comparing a view "a\0b" with the C string "a" reads beyond the terminator; (4) with signed `char` the view "a" compares greater than
the C string "a\x80", while as views the order is the opposite. -/
theorem C17_fails :
    compareView diffU32 id ⟨[2147483648], 0, 1⟩ ⟨[0], 0, 1⟩ = some (-2147483648) ∧
    (compareView diffU32 id ⟨[0], 0, 1⟩ ⟨[1431655765], 0, 1⟩ = some (-1431655765) ∧
     compareView diffU32 id ⟨[1431655765], 0, 1⟩ ⟨[2863311530], 0, 1⟩ = some (-1431655765) ∧
     compareView diffU32 id ⟨[2863311530], 0, 1⟩ ⟨[0], 0, 1⟩ = some (-1431655766)) ∧
    compareSz diffSmall id ⟨[97, 0, 98], 0, 3⟩ (some [97, 0]) = none ∧
    (compareSz diffSmall id ⟨[97], 0, 1⟩ (some [97, -128, 0]) = some 128 ∧
     compareView diffSmall id ⟨[97], 0, 1⟩ ⟨[97, -128], 0, 2⟩ = some (-1)) := by
  refine ⟨?_, ⟨?_, ?_, ?_⟩, ?_, ?_, ?_⟩ <;> rfl

example : ([97, 98] : List Int) < [97, 99] ∧ Reports (-1) [97, 98] [97, 99] := by
  refine ⟨by decide, by unfold Reports; refine ⟨?_, ?_, ?_⟩ <;> decide⟩

#print axioms C17_compare_partial
#print axioms C17_compareSz_partial
#print axioms C17_upper_is_ascii
#print axioms C17_fails
end Verif.View
