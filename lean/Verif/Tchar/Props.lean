import Verif.View.Compare
import Verif.Tchar.Model
/-!
# C82 – raw strings: length and comparison

Specification: `IsSz p u` – the pointer `p` points to the units `u`, none of them 0, followed by a terminator and anything after it; the null
pointer counts as the empty text.  `Reports d t u` (C17): the sign of `d` is the lexicographic comparison of `t` and `u`.
-/
namespace Verif.Tchar
open Verif.View (upper diffSmall diffU32 diffW32 Reports not_lt_nil nil_lt reports_cons reports_diff)

/-- `p` is null and the text empty, or `p` points to `u`, a terminator and arbitrary memory -/
def IsSz (p : Option (List Int)) (u : List Int) : Prop :=
  (∀ x ∈ u, x ≠ 0) ∧ ((p = none ∧ u = []) ∨ ∃ rest, p = some (u ++ 0 :: rest))

theorem reports_refl (t : List Int) : Reports 0 t t := by
  induction t with
  | nil => exact ⟨⟨by omega, fun h => absurd h (not_lt_nil _)⟩, ⟨fun _ => rfl, fun _ => rfl⟩, ⟨by omega, fun h => absurd h (not_lt_nil _)⟩⟩
  | cons x t ih => exact reports_cons ih rfl

theorem reports_nil_left {d : Int} {t : List Int} (h : d < 0) (ht : t ≠ []) : Reports d [] t :=
  ⟨⟨fun _ => nil_lt ht, fun _ => h⟩, ⟨by omega, fun e => absurd e.symm ht⟩, ⟨by omega, fun e => absurd e (not_lt_nil _)⟩⟩

theorem reports_nil_right {d : Int} {t : List Int} (h : 0 < d) (ht : t ≠ []) : Reports d t [] :=
  ⟨⟨by omega, fun e => absurd e (not_lt_nil _)⟩, ⟨by omega, fun e => absurd e ht⟩, ⟨fun _ => nil_lt ht, fun _ => h⟩⟩

theorem reports_neg {x y : Int} {t u : List Int} {d : Int} (hd : d < 0) (h : x < y) : Reports d (x :: t) (y :: u) := by
  have := reports_diff (t := t) (u := u) (x := x) (y := y) (by omega)
  obtain ⟨h1, h2, h3⟩ := this
  exact ⟨⟨fun _ => h1.1 (by omega), fun _ => hd⟩, ⟨by omega, fun e => by have := h2.2 e; omega⟩, ⟨by omega, fun e => by have := h3.2 e; omega⟩⟩

theorem reports_pos {x y : Int} {t u : List Int} {d : Int} (hd : 0 < d) (h : y < x) : Reports d (x :: t) (y :: u) := by
  have := reports_diff (t := t) (u := u) (x := x) (y := y) (by omega)
  obtain ⟨h1, h2, h3⟩ := this
  exact ⟨⟨by omega, fun e => by have := h1.2 e; omega⟩, ⟨by omega, fun e => by have := h2.2 e; omega⟩, ⟨fun _ => h3.1 (by omega), fun _ => hd⟩⟩

/-! ## Length -/

theorem lengthLoop_eq (u rest : List Int) (h : ∀ x ∈ u, x ≠ 0) : lengthLoop (u ++ 0 :: rest) = some u.length := by
  induction u with
  | nil => rfl
  | cons x u ih =>
    have hx := h x (by simp)
    rw [List.cons_append, lengthLoop, if_neg hx, ih (fun y hy => h y (by simp [hy]))]
    rfl

/-- **C82**: the length is the number of units before the terminator, `IsEmptyString` tells whether it is 0; nothing after the terminator is
read. -/
theorem C82_length (p : Option (List Int)) (u : List Int) (h : IsSz p u) :
    getStringLength p = some u.length ∧ isEmptyString p = some (decide (u = [])) := by
  obtain ⟨hn, ⟨rfl, rfl⟩ | ⟨rest, rfl⟩⟩ := h
  · exact ⟨rfl, rfl⟩
  · refine ⟨lengthLoop_eq u rest hn, ?_⟩
    cases u with
    | nil => rfl
    | cons x u => simp [isEmptyString, hn x (by simp)]

/-! ## Terminated strings -/

/-- the generic loop, when the subtraction is exact on the units and `f` keeps positive units positive -/
theorem loopZ_spec (diff : Int → Int → Option Int) (f : Int → Int) (hf0 : f 0 = 0) (u v r1 r2 : List Int)
    (hu : ∀ x ∈ u, x ≠ 0 ∧ 0 < f x) (hv : ∀ x ∈ v, x ≠ 0 ∧ 0 < f x)
    (hd : ∀ x ∈ u ++ [0], ∀ y ∈ v ++ [0], diff (f x) (f y) = some (f x - f y)) :
    ∃ d, loopZ diff f (u ++ 0 :: r1) (v ++ 0 :: r2) = some d ∧ Reports d (u.map f) (v.map f) := by
  induction u generalizing v with
  | nil =>
    cases v with
    | nil =>
      have := hd 0 (by simp) 0 (by simp)
      rw [Int.sub_self] at this
      exact ⟨0, by simp [loopZ, this], reports_refl _⟩
    | cons y v =>
      have h1 := hd 0 (by simp) y (by simp)
      have h2 := (hv y (by simp)).2
      refine ⟨f 0 - f y, ?_, reports_nil_left (by omega) (by simp)⟩
      have hn : f 0 - f y ≠ 0 := by omega
      simp [loopZ, h1, hn]
  | cons x u ih =>
    have hx := hu x (by simp)
    cases v with
    | nil =>
      have h1 := hd x (by simp) 0 (by simp)
      refine ⟨f x - f 0, ?_, reports_nil_right (by omega) (by simp)⟩
      have hn : f x - f 0 ≠ 0 := by omega
      simp [loopZ, h1, hn]
    | cons y v =>
      have h1 := hd x (by simp) y (by simp)
      by_cases he : f x = f y
      · obtain ⟨d, g1, g2⟩ := ih v (fun z hz => hu z (by simp [hz])) (fun z hz => hv z (by simp [hz]))
          (fun a ha b hb => hd a (List.mem_cons_of_mem _ ha) b (List.mem_cons_of_mem _ hb))
        have hz : f x - f y = 0 := by omega
        rw [hz] at h1
        refine ⟨d, ?_, by simpa using reports_cons g2 he⟩
        simp [loopZ, h1, hx.1, g1]
      · have hn : f x - f y ≠ 0 := by omega
        exact ⟨f x - f y, by simp [loopZ, h1, hn], by simpa using reports_diff he⟩

theorem libCompare_spec (key : Int → Int) (hk0 : key 0 = 0) (u v r1 r2 : List Int)
    (hu : ∀ x ∈ u, x ≠ 0 ∧ 0 < key x) (hv : ∀ x ∈ v, x ≠ 0 ∧ 0 < key x) :
    ∃ d, libCompare key (u ++ 0 :: r1) (v ++ 0 :: r2) = some d ∧ Reports d (u.map key) (v.map key) := by
  induction u generalizing v with
  | nil =>
    cases v with
    | nil => exact ⟨0, by simp [libCompare], reports_refl _⟩
    | cons y v =>
      have h2 := (hv y (by simp)).2
      refine ⟨-1, ?_, reports_nil_left (by omega) (by simp)⟩
      simp [libCompare, hk0, h2]
  | cons x u ih =>
    have hx := hu x (by simp)
    cases v with
    | nil =>
      refine ⟨1, ?_, reports_nil_right (by omega) (by simp)⟩
      have : ¬ key x < 0 := by omega
      simp [libCompare, hk0, this, hx.2]
    | cons y v =>
      by_cases h1 : key x < key y
      · exact ⟨-1, by simp [libCompare, h1], by simpa using reports_neg (by omega) h1⟩
      · by_cases h2 : key y < key x
        · exact ⟨1, by simp [libCompare, h1, h2], by simpa using reports_pos (by omega) h2⟩
        · obtain ⟨d, g1, g2⟩ := ih v (fun z hz => hu z (by simp [hz])) (fun z hz => hv z (by simp [hz]))
          refine ⟨d, ?_, by simpa using reports_cons g2 (by omega)⟩
          simp [libCompare, h1, h2, hx.1, g1]

theorem nullCases_spec (g : Int → Int) (same : Bool) (p q : Option (List Int)) (u v : List Int) (hp : IsSz p u) (hq : IsSz q v)
    (hs : same = true → u = v) (k : List Int → List Int → Option Int)
    (hk : ∀ r1 r2, ∃ d, k (u ++ 0 :: r1) (v ++ 0 :: r2) = some d ∧ Reports d (u.map g) (v.map g)) :
    ∃ d, nullCases same p q k = some d ∧ Reports d (u.map g) (v.map g) := by
  cases same with
  | true => rw [hs rfl]; exact ⟨0, rfl, reports_refl _⟩
  | false =>
    obtain ⟨hn, ⟨rfl, rfl⟩ | ⟨r1, rfl⟩⟩ := hp <;> obtain ⟨hm, ⟨rfl, rfl⟩ | ⟨r2, rfl⟩⟩ := hq
    · exact ⟨0, rfl, reports_refl _⟩
    · cases v with
      | nil => exact ⟨0, rfl, reports_refl _⟩
      | cons y v => exact ⟨-1, by simp [nullCases, hm y (by simp)], reports_nil_left (by omega) (by simp)⟩
    · cases u with
      | nil => exact ⟨0, rfl, reports_refl _⟩
      | cons x u => exact ⟨1, by simp [nullCases, hn x (by simp)], reports_nil_right (by omega) (by simp)⟩
    · obtain ⟨d, g1, g2⟩ := hk r1 r2
      refine ⟨d, ?_, g2⟩
      rw [← g1]
      cases u <;> cases v <;> rfl

/-- the units the comparisons handle: 32-bit units below 2^31, `wchar_t` not negative -/
def Ch.Ok (c : Ch) (x : Int) : Prop :=
  c.Range x ∧ (c = .c32 → x < 2147483648) ∧ (c = .w32 → 0 ≤ x)

/-- the value of a unit in the order of `StringCompare`: `char` units count as bytes -/
def Ch.value (c : Ch) (x : Int) : Int := if c = .aWin ∧ x < 0 then x + 256 else x

theorem key_eq (c : Ch) (x : Int) (h : c.Ok x) : c.key x = c.value x := by
  obtain ⟨h1, _, _⟩ := h
  cases c <;> simp [Ch.key, Ch.value, Ch.Range] at *
  split <;> omega

theorem value_pos (c : Ch) (x : Int) (h : c.Ok x) (h0 : x ≠ 0) : 0 < c.value x := by
  obtain ⟨h1, _, h3⟩ := h
  cases c <;> simp [Ch.value, Ch.Range] at *
  case aWin => split <;> omega
  all_goals omega

theorem diff_exact (c : Ch) (x y : Int) (hx : c.Ok x) (hy : c.Ok y) : c.diff x y = some (x - y) := by
  obtain ⟨h1, h2, h3⟩ := hx
  obtain ⟨g1, g2, g3⟩ := hy
  cases c <;> simp [Ch.Range] at h1 g1
  case c32 =>
    have := h2 rfl; have := g2 rfl
    simp only [Ch.diff, diffU32]; congr 1; omega
  case w32 =>
    have := h3 rfl; have := g3 rfl
    simp only [Ch.diff, diffW32]; rw [if_pos (by omega)]
  all_goals rfl

theorem ok_zero (c : Ch) : c.Ok 0 := by
  refine ⟨?_, fun _ => by omega, fun _ => by omega⟩
  cases c <;> simp [Ch.Range]

theorem ok_upper (c : Ch) (x : Int) (h : c.Ok x) : c.Ok (upper x) := by
  obtain ⟨h1, h2, h3⟩ := h
  have hu : upper x = x ∨ (97 ≤ x ∧ x ≤ 122 ∧ upper x = x - 32) := by
    unfold upper; split <;> omega
  refine ⟨?_, fun e => by have := h2 e; omega, fun e => by have := h3 e; omega⟩
  cases c <;> simp [Ch.Range] at * <;> omega

theorem map_congr' {f g : Int → Int} {t : List Int} (h : ∀ x ∈ t, f x = g x) : t.map f = t.map g := List.map_congr_left h

/-- **C82**, partial: comparison of terminated strings (null = empty) reports the lexicographic order of the units, for every unit type;
nothing behind a terminator is read.  Missing: `char32_t` units from 2^31 on and negative `wchar_t` (`C82_compare_fails`). -/
theorem C82_compare_partial (c : Ch) (same : Bool) (p q : Option (List Int)) (u v : List Int) (hp : IsSz p u) (hq : IsSz q v)
    (hs : same = true → u = v) (hu : ∀ x ∈ u, c.Ok x) (hv : ∀ x ∈ v, c.Ok x) :
    ∃ d, compareZ c same p q = some d ∧ Reports d (u.map c.value) (v.map c.value) := by
  have posu : ∀ x ∈ u, x ≠ 0 ∧ 0 < c.value x := fun x hx => ⟨hp.1 x hx, value_pos c x (hu x hx) (hp.1 x hx)⟩
  have posv : ∀ x ∈ v, x ≠ 0 ∧ 0 < c.value x := fun x hx => ⟨hq.1 x hx, value_pos c x (hv x hx) (hq.1 x hx)⟩
  apply nullCases_spec c.value same p q u v hp hq hs
  intro r1 r2
  cases hl : c.library with
  | true =>
    have k0 : c.key 0 = 0 := by rw [key_eq c 0 (ok_zero c)]; cases c <;> simp [Ch.value]
    have := libCompare_spec c.key k0 u v r1 r2 (fun x hx => by rw [key_eq c x (hu x hx)]; exact posu x hx)
      (fun x hx => by rw [key_eq c x (hv x hx)]; exact posv x hx)
    rw [map_congr' (fun x hx => key_eq c x (hu x hx)), map_congr' (fun x hx => key_eq c x (hv x hx))] at this
    simpa using this
  | false =>
    have hid : ∀ x, c.value x = x := by
      intro x
      cases c <;> simp [Ch.library] at hl <;> simp [Ch.value]
    have e1 : u.map c.value = u.map id := map_congr' (fun x _ => hid x)
    have e2 : v.map c.value = v.map id := map_congr' (fun x _ => hid x)
    rw [e1, e2]
    simp only [Bool.false_eq_true, if_false]
    apply loopZ_spec c.diff id rfl u v r1 r2
    · intro x hx; have := posu x hx; rw [hid] at this; exact this
    · intro x hx; have := posv x hx; rw [hid] at this; exact this
    · intro x hx y hy
      have ox : c.Ok x := by
        rcases List.mem_append.1 hx with h | h
        · exact hu x h
        · rw [List.mem_singleton.1 h]; exact ok_zero c
      have oy : c.Ok y := by
        rcases List.mem_append.1 hy with h | h
        · exact hv y h
        · rw [List.mem_singleton.1 h]; exact ok_zero c
      exact diff_exact c x y ox oy

theorem upper_pos (x : Int) (h : 0 < x) : 0 < upper x := by unfold upper; split <;> omega
theorem upper_zero : upper 0 = 0 := by decide

/-- **C82**, partial: the comparison without case reports the order of the ASCII upper-cased texts.  Missing: as above, and `char` units from
0x80 on in a terminated string (`C82_signed_fails`). -/
theorem C82_ignore_partial (c : Ch) (same : Bool) (p q : Option (List Int)) (u v : List Int) (hp : IsSz p u) (hq : IsSz q v)
    (hs : same = true → u = v) (hu : ∀ x ∈ u, c.Ok x ∧ 0 ≤ x) (hv : ∀ x ∈ v, c.Ok x ∧ 0 ≤ x) :
    ∃ d, compareIZ c same p q = some d ∧ Reports d (u.map upper) (v.map upper) := by
  apply nullCases_spec upper same p q u v hp hq hs
  intro r1 r2
  apply loopZ_spec c.diff upper upper_zero u v r1 r2
  · intro x hx
    have h1 := hp.1 x hx
    have h2 := (hu x hx).2
    exact ⟨h1, upper_pos x (by omega)⟩
  · intro x hx
    have h1 := hq.1 x hx
    have h2 := (hv x hx).2
    exact ⟨h1, upper_pos x (by omega)⟩
  · intro x hx y hy
    have ox : c.Ok x := by
      rcases List.mem_append.1 hx with h | h
      · exact (hu x h).1
      · rw [List.mem_singleton.1 h]; exact ok_zero c
    have oy : c.Ok y := by
      rcases List.mem_append.1 hy with h | h
      · exact (hv y h).1
      · rw [List.mem_singleton.1 h]; exact ok_zero c
    exact diff_exact c _ _ (ok_upper c x ox) (ok_upper c y oy)

/-! ## Counted comparison -/

theorem libCompareN_spec (key : Int → Int) (n : Nat) (l r : List Int) (hl : n ≤ l.length) (hr : n ≤ r.length) :
    ∃ d, libCompareN key n l r = some d ∧ Reports d ((l.take n).map key) ((r.take n).map key) := by
  induction n generalizing l r with
  | zero => exact ⟨0, by simp [libCompareN], by simpa using reports_refl []⟩
  | succ n ih =>
    cases l with
    | nil => simp at hl
    | cons x l =>
    cases r with
    | nil => simp at hr
    | cons y r =>
    obtain ⟨d, g1, g2⟩ := ih l r (by simpa using hl) (by simpa using hr)
    refine ⟨if key x < key y then -1 else if key y < key x then 1 else d, by simp only [libCompareN, g1], ?_⟩
    simp only [List.take_succ_cons, List.map_cons]
    by_cases h1 : key x < key y
    · rw [if_pos h1]; exact reports_neg (by omega) h1
    · rw [if_neg h1]
      by_cases h2 : key y < key x
      · rw [if_pos h2]; exact reports_pos (by omega) h2
      · rw [if_neg h2]; exact reports_cons g2 (by omega)

/-- **C82**: with a library specialisation, the counted comparison reports the order of the first `n` units, of which alone it needs the memory. -/
theorem C82_counted (c : Ch) (hc : c.library = true) (same : Bool) (l r : List Int) (n : Nat) (hl : n ≤ l.length) (hr : n ≤ r.length)
    (hs : same = true → l = r) (hu : ∀ x ∈ l.take n, c.Range x) (hv : ∀ x ∈ r.take n, c.Range x) :
    ∃ d, compareN c same l r n = some d ∧ Reports d ((l.take n).map c.value) ((r.take n).map c.value) := by
  unfold compareN
  by_cases h0 : n = 0
  · subst h0; exact ⟨0, by simp, by simpa using reports_refl []⟩
  · rw [if_neg h0]
    cases same with
    | true => rw [hs rfl]; exact ⟨0, rfl, reports_refl _⟩
    | false =>
      simp only [Bool.false_eq_true, if_false, hc, if_true]
      obtain ⟨d, g1, g2⟩ := libCompareN_spec c.key n l r hl hr
      have kv : ∀ x, c.Range x → c.key x = c.value x := by
        intro x h
        cases c <;> simp [Ch.key, Ch.value, Ch.Range] at *
        split <;> omega
      rw [map_congr' (fun x hx => kv x (hu x hx)), map_congr' (fun x hx => kv x (hv x hx))] at g2
      exact ⟨d, g1, g2⟩

theorem loopN_spec (diff : Int → Int → Option Int) (n : Nat) (l r : List Int) (hl : n ≤ l.length) (hr : n ≤ r.length)
    (hd : ∀ x ∈ l.take n, ∀ y ∈ r.take n, diff x y = some (x - y)) (hne : l.take n ≠ r.take n) :
    ∃ d, loopN diff n l r = some d ∧ Reports d (l.take n) (r.take n) := by
  induction n generalizing l r with
  | zero => simp at hne
  | succ n ih =>
    cases l with
    | nil => simp at hl
    | cons x l =>
    cases r with
    | nil => simp at hr
    | cons y r =>
    simp only [List.take_succ_cons] at hd hne ⊢
    by_cases h1 : x = y
    · subst h1
      obtain ⟨d, g1, g2⟩ := ih l r (by simpa using hl) (by simpa using hr) (fun a ha b hb => hd a (by simp [ha]) b (by simp [hb]))
        (fun e => hne (by rw [e]))
      exact ⟨d, by simp [loopN, g1], reports_cons g2 rfl⟩
    · refine ⟨x - y, ?_, reports_diff h1⟩
      simp [loopN, h1, hd x (by simp) y (by simp)]

/-- **C82**, partial: the generic counted comparison (`char16_t`, `char32_t`) is right if the first `n` units differ.  Missing: equal ones
(`C82_counted_fails`). -/
theorem C82_counted_generic_partial (c : Ch) (hc : c.library = false) (l r : List Int) (n : Nat) (hl : n ≤ l.length) (hr : n ≤ r.length)
    (hu : ∀ x ∈ l.take n, c.Ok x) (hv : ∀ x ∈ r.take n, c.Ok x) (hne : l.take n ≠ r.take n) :
    ∃ d, compareN c false l r n = some d ∧ Reports d (l.take n) (r.take n) := by
  have h0 : n ≠ 0 := by intro h; subst h; simp at hne
  unfold compareN
  rw [if_neg h0]
  simp only [Bool.false_eq_true, if_false, hc]
  exact loopN_spec c.diff n l r hl hr (fun x hx y hy => diff_exact c x y (hu x hx) (hv y hy)) hne

theorem loopN_equal (diff : Int → Int → Option Int) (t r1 r2 : List Int) :
    loopN diff t.length (t ++ r1) (t ++ r2) = loopN diff 0 r1 r2 := by
  induction t with
  | nil => rfl
  | cons x t ih => simpa [loopN] using ih

/-- The full claim fails for **every** pair of equal texts `t` (not empty): the result is the difference of the units *behind* the compared
ones, and if there are none, they are read out of bounds. -/
theorem C82_counted_fails (c : Ch) (hc : c.library = false) (t : List Int) (ht : t ≠ []) :
    (∀ x y r1 r2, compareN c false (t ++ x :: r1) (t ++ y :: r2) t.length = c.diff x y) ∧
      (∀ r, compareN c false (t ++ []) (t ++ r) t.length = none) ∧ (∀ r, compareN c false (t ++ r) (t ++ []) t.length = none) := by
  have h0 : t.length ≠ 0 := by intro h; exact ht (List.eq_nil_of_length_eq_zero h)
  have e : ∀ r1 r2, compareN c false (t ++ r1) (t ++ r2) t.length = loopN c.diff 0 r1 r2 := by
    intro r1 r2
    unfold compareN
    rw [if_neg h0]
    simp only [Bool.false_eq_true, if_false, hc]
    exact loopN_equal c.diff t r1 r2
  refine ⟨fun x y r1 r2 => by rw [e]; rfl, fun r => by rw [e]; rfl, fun r => ?_⟩
  rw [e]
  cases r <;> rfl

/-- … for instance "abX" and "abY" are different in their first two units, by this function. -/
theorem C82_counted_example : compareN .c16 false [97, 98, 88] [97, 98, 89] 2 = some (-1) := by rfl

theorem loopIN_spec (diff : Int → Int → Option Int) (n : Nat) (l r : List Int) (hl : n ≤ l.length) (hr : n ≤ r.length)
    (hd : ∀ x ∈ l.take n, ∀ y ∈ r.take n, diff (upper x) (upper y) = some (upper x - upper y)) :
    ∃ d, loopIN diff n l r = some d ∧ Reports d ((l.take n).map upper) ((r.take n).map upper) := by
  induction n generalizing l r with
  | zero => exact ⟨0, by simp [loopIN], by simpa using reports_refl []⟩
  | succ n ih =>
    cases l with
    | nil => simp at hl
    | cons x l =>
    cases r with
    | nil => simp at hr
    | cons y r =>
    simp only [List.take_succ_cons] at hd
    have h1 := hd x (by simp) y (by simp)
    obtain ⟨d, g1, g2⟩ := ih l r (by simpa using hl) (by simpa using hr) (fun a ha b hb => hd a (by simp [ha]) b (by simp [hb]))
    simp only [List.take_succ_cons, List.map_cons]
    by_cases he : upper x = upper y
    · have hz : upper x - upper y = 0 := by omega
      rw [hz] at h1
      exact ⟨d, by simp [loopIN, h1, g1], reports_cons g2 he⟩
    · have hn : upper x - upper y ≠ 0 := by omega
      exact ⟨upper x - upper y, by simp [loopIN, h1, hn], reports_diff he⟩

/-- **C82**: the counted comparison without case reports the order of the upper-cased first `n` units (as values of their C type) and reads only
these, for every unit type and 32-bit units below 2^31. -/
theorem C82_counted_ignore_partial (c : Ch) (same : Bool) (l r : List Int) (n : Nat) (hl : n ≤ l.length) (hr : n ≤ r.length)
    (hs : same = true → l = r) (hu : ∀ x ∈ l.take n, c.Ok x) (hv : ∀ x ∈ r.take n, c.Ok x) :
    ∃ d, compareIN c same l r n = some d ∧ Reports d ((l.take n).map upper) ((r.take n).map upper) := by
  unfold compareIN
  by_cases h0 : n = 0
  · subst h0; exact ⟨0, by simp, by simpa using reports_refl []⟩
  · rw [if_neg h0]
    cases same with
    | true => rw [hs rfl]; exact ⟨0, rfl, reports_refl _⟩
    | false =>
      simp only [Bool.false_eq_true, if_false]
      exact loopIN_spec c.diff n l r hl hr (fun x hx y hy => diff_exact c _ _ (ok_upper c x (hu x hx)) (ok_upper c y (hv y hy)))

/-! ## Failures -/

/-- `char32_t`: 0x80000000 compares greater than 1, but 0x80000001 less; 32-bit `wchar_t`: comparing without case can overflow (undefined). -/
theorem C82_compare_fails :
    compareZ .c32 false (some [2147483648, 0]) (some [1, 0]) = some 2147483647 ∧ compareZ .c32 false (some [2147483649, 0]) (some [1, 0]) = some (-2147483648) ∧
      compareIZ .w32 false (some [2147483647, 0]) (some [-1, 0]) = none := by
  refine ⟨?_, ?_, ?_⟩ <;> rfl

/-- MSVC `char`: "\x80" is greater than "0" for `StringCompare`, but less for `StringCompareIgnoreAsASCII` – neither contains a letter.  And a
string sorts *before* its own prefix. -/
theorem C82_signed_fails :
    compareZ .aWin false (some [-128, 0]) (some [48, 0]) = some 1 ∧ compareIZ .aWin false (some [-128, 0]) (some [48, 0]) = some (-176) ∧
      compareIZ .aWin false (some [48, -128, 0]) (some [48, 0]) = some (-128) := by
  refine ⟨?_, ?_, ?_⟩ <;> rfl

/-! ## Examples -/

example : IsSz (some [97, 98, 0, 55]) [97, 98] ∧ getStringLength (some [97, 98, 0, 55]) = some 2 :=
  ⟨⟨by decide, .inr ⟨[55], rfl⟩⟩, rfl⟩
example : compareZ .aWin false (some [97, 0]) none = some 1 ∧ compareZ .w16 false (some [97, 98, 0]) (some [97, 99, 0, 7]) = some (-1) := ⟨rfl, rfl⟩
example : compareIZ .c16 false (some [97, 66, 0]) (some [65, 98, 0]) = some 0 := by rfl
example : compareN .w16 false [97, 98] [97, 98] 2 = some 0 ∧ compareIN .byte false [97, 98] [65, 67] 2 = some (-1) := ⟨rfl, rfl⟩
example : compareN .c32 false [97, 98] [97, 99] 2 = some (-1) := by rfl

#print axioms C82_length
#print axioms C82_compare_partial
#print axioms C82_ignore_partial
#print axioms C82_counted
#print axioms C82_counted_generic_partial
#print axioms C82_counted_fails
#print axioms C82_counted_ignore_partial
#print axioms C82_compare_fails
#print axioms C82_signed_fails

end Verif.Tchar
