import Verif.Utf.IllFormed
/-! # C03, C07: exactly what the conversions from UTF-16 do with every sequence of units, and exactly when that is right -/
namespace Verif.Utf
open Spec

/-! ## Specification -/

/-- a unit the code takes for half of a pair: the surrogates and U+E000 -/
def Half (u : Nat) : Prop := 0xD800 ≤ u ∧ u ≤ 0xE000
instance (u) : Decidable (Half u) := by unfold Half; infer_instance

/-- decoding in which every `Half` followed by a low surrogate makes a pair, other halves give '?' -/
def wide16 : List Nat → List Nat
  | [] => []
  | [u] => if Half u then [0x3F] else [u]
  | u :: v :: rest =>
    if Half u ∧ isLow v then (0x10000 + (u - 0xD800) * 1024 + (v - 0xDC00)) :: wide16 rest
    else if Half u then 0x3F :: wide16 (v :: rest)
    else u :: wide16 (v :: rest)

/-- no U+E000; outside of the pairs no low surrogate is followed by another one -/
def Fine16 : List Nat → Prop
  | [] => True
  | [u] => u ≠ 0xE000
  | u :: v :: rest => if isHigh u ∧ isLow v then Fine16 rest else u ≠ 0xE000 ∧ ¬ (isLow u ∧ isLow v) ∧ Fine16 (v :: rest)

/-- outside of the pairs no low surrogate or U+E000 is followed by a low surrogate -/
def Safe16 : List Nat → Prop
  | [] => True
  | [_] => True
  | u :: v :: rest => if isHigh u ∧ isLow v then Safe16 rest else ¬ ((isLow u ∨ u = 0xE000) ∧ isLow v) ∧ Safe16 (v :: rest)

/-! ## The loops -/
theorem w16_pair (u v : Nat) (l : List Nat) (h : Half u) (hv : isLow v) : wide16 (u :: v :: l) = (0x10000 + (u - 0xD800) * 1024 + (v - 0xDC00)) :: wide16 l := by
  rw [wide16, if_pos ⟨h, hv⟩]
theorem w16_lone (u v : Nat) (l : List Nat) (h : Half u) (hv : ¬ isLow v) : wide16 (u :: v :: l) = 0x3F :: wide16 (v :: l) := by
  rw [wide16, if_neg (by simp [hv]), if_pos h]
theorem w16_other (u : Nat) (l : List Nat) (h : ¬ Half u) : wide16 (u :: l) = u :: wide16 l := by
  cases l with
  | nil => simp [wide16, h]
  | cons v l => rw [wide16, if_neg (by simp [h]), if_neg h]

theorem half_ne {u : Nat} (h : Half u) : u ≠ 0 := by unfold Half at h; omega

theorem z32_half (v : Nat) (h : Half v) : step16LEto32LE 0 v = ([], v) := by
  unfold Half at h
  unfold step16LEto32LE
  rw [if_neg (by omega)]; simp only [ne_eq, not_true_eq_false, if_false]; rw [if_pos (by omega)]
theorem z8_half (v : Nat) (h : Half v) : step16LEto8 0 v = ([], v) := by
  unfold Half at h
  unfold step16LEto8
  rw [if_neg (by omega)]; simp only [ne_eq, not_true_eq_false, if_false]
  rw [if_neg (by omega), if_neg (by omega), if_neg (by omega)]
theorem p32 (u v : Nat) (h : Half u) (hv : isLow v) : step16LEto32LE u v = ([0x10000 + (u - 0xD800) * 1024 + (v - 0xDC00)], 0) := by
  unfold Half at h; unfold isLow at hv
  unfold step16LEto32LE
  rw [if_pos (by omega), pair_eq _ _ (by omega),
    show ((u - 0xD800) * 1024 + (v - 0xDC00) + 0x10000) % 2 ^ 32 = 0x10000 + (u - 0xD800) * 1024 + (v - 0xDC00) by omega]
/-- UTF-8 as written by the code: four bytes at most, three bits in the lead byte -/
def cut8 (n : Nat) : List Nat :=
  if n < 0x10000 then utf8 n else [0xF0 + n / 262144 % 8, 0x80 + n / 4096 % 64, 0x80 + n / 64 % 64, 0x80 + n % 64]

theorem cut8_small (n : Nat) (h : n < 0x200000) : cut8 n = utf8 n := by
  unfold cut8 utf8
  split
  · rfl
  · simp only [show ¬ n < 0x80 by omega, show ¬ n < 0x800 by omega, if_false, show n / 262144 % 8 = n / 262144 by omega]

theorem p8 (u v : Nat) (h : Half u) (hv : isLow v) : step16LEto8 u v = (cut8 (0x10000 + (u - 0xD800) * 1024 + (v - 0xDC00)), 0) := by
  unfold Half at h; unfold isLow at hv
  unfold step16LEto8
  rw [if_pos (by omega), pair_eq _ _ (by omega)]
  have e : ((u - 0xD800) * 1024 + (v - 0xDC00) + 0x10000) % 2 ^ 32 = 0x10000 + (u - 0xD800) * 1024 + (v - 0xDC00) := by omega
  simp only [e, shr0, shr6, shr12, shr18, and3F, and7]
  generalize hn : 0x10000 + (u - 0xD800) * 1024 + (v - 0xDC00) = n
  unfold cut8
  rw [if_neg (by omega), orF0 _ (by omega), or80 _ (by omega), or80 _ (by omega), or80 _ (by omega)]

theorem other_scalar (v : Nat) (hv : v < 65536) (h : ¬ Half v) : Scalar v ∧ v ≠ 0xE000 ∧ utf16 v = [v] := by
  unfold Half at h
  exact ⟨⟨by omega, by omega⟩, by omega, by rw [utf16, if_pos hv]⟩

theorem out32_wide : ∀ (src : List Nat), (∀ x ∈ src, x < 65536) →
    out16 step16LEto32LE q 0 src = wide16 src ∧ ∀ u, Half u → out16 step16LEto32LE q u src = wide16 (u :: src) := by
  intro src
  induction src with
  | nil => exact fun _ => ⟨rfl, fun u hu => by simp [out16, half_ne hu, wide16, hu, q]⟩
  | cons v src ih =>
    intro hx
    obtain ⟨ih1, ih2⟩ := ih (fun x h => hx x (by simp [h]))
    have first : out16 step16LEto32LE q 0 (v :: src) = wide16 (v :: src) := by
      by_cases hs : Half v
      · rw [out16, z32_half v hs]; exact ih2 v hs
      · obtain ⟨h1, hE, h2⟩ := other_scalar v (hx v (by simp)) hs
        have := out16_32_utf16 q v h1 hE src
        rw [h2] at this
        rw [w16_other v src hs, ← ih1]; exact this
    refine ⟨first, fun u hu => ?_⟩
    by_cases hl : isLow v
    · rw [w16_pair u v src hu hl, out16, p32 u v hu hl, ← ih1]; rfl
    · rw [w16_lone u v src hu hl, ← first, out16, out16, s32_pend u v (half_ne hu) hl]; rfl

theorem out8_wide : ∀ (src : List Nat), (∀ x ∈ src, x < 65536) →
    out16 step16LEto8 q 0 src = (wide16 src).flatMap cut8 ∧ ∀ u, Half u → out16 step16LEto8 q u src = (wide16 (u :: src)).flatMap cut8 := by
  intro src
  have hq : cut8 0x3F = [q] := by decide
  induction src with
  | nil => exact fun _ => ⟨rfl, fun u hu => by simp [out16, half_ne hu, wide16, hu, hq]⟩
  | cons v src ih =>
    intro hx
    obtain ⟨ih1, ih2⟩ := ih (fun x h => hx x (by simp [h]))
    have first : out16 step16LEto8 q 0 (v :: src) = (wide16 (v :: src)).flatMap cut8 := by
      by_cases hs : Half v
      · rw [out16, z8_half v hs]; exact ih2 v hs
      · obtain ⟨h1, hE, h2⟩ := other_scalar v (hx v (by simp)) hs
        have := out16_8_utf16 q v h1 hE src
        rw [h2] at this
        rw [w16_other v src hs, List.flatMap_cons, ← ih1, cut8_small v (by have := hx v (by simp); omega)]; exact this
    refine ⟨first, fun u hu => ?_⟩
    by_cases hl : isLow v
    · rw [w16_pair u v src hu hl, out16, p8 u v hu hl, List.flatMap_cons, ← ih1]
    · rw [w16_lone u v src hu hl, List.flatMap_cons, ← first, out16, out16, s8_pend u v (half_ne hu) hl, hq]; rfl

/-! ## When is it right? -/
theorem half_cases {u : Nat} (h : Half u) : isHigh u ∨ isLow u ∨ u = 0xE000 := by unfold Half isHigh isLow at *; omega
theorem high_half {u : Nat} (h : isHigh u) : Half u := by unfold Half isHigh at *; omega
theorem low_half {u : Nat} (h : isLow u) : Half u := by unfold Half isLow at *; omega
theorem high_not_low {u : Nat} (h : isHigh u) : ¬ isLow u := by unfold isHigh isLow at *; omega
theorem high_ne {u : Nat} (h : isHigh u) : u ≠ 0xE000 := by unfold isHigh at *; omega

/-- induction along the pairs -/
theorem pairs_ind {P : List Nat → Prop} (h0 : P []) (h1 : ∀ u, P [u]) (h2 : ∀ u v l, isHigh u → isLow v → P l → P (u :: v :: l))
    (h3 : ∀ u v l, ¬ (isHigh u ∧ isLow v) → P (v :: l) → P (u :: v :: l)) (l : List Nat) : P l := by
  have key : ∀ k (l : List Nat), l.length ≤ k → P l := by
    intro k
    induction k with
    | zero => intro l h; have : l = [] := by cases l; rfl; simp at h
              subst this; exact h0
    | succ k ih =>
      intro l h
      match l, h with
      | [], _ => exact h0
      | [u], _ => exact h1 u
      | u :: v :: l, h =>
        simp only [List.length_cons] at h
        by_cases hp : isHigh u ∧ isLow v
        · exact h2 u v l hp.1 hp.2 (ih l (by omega))
        · exact h3 u v l hp (ih _ (by simp only [List.length_cons]; omega))
  exact key _ l (Nat.le_refl _)

theorem utf8s_cons (n : Nat) (l : List Nat) : utf8s (n :: l) = utf8 n ++ utf8s l := rfl
theorem utf16s_cons (n : Nat) (l : List Nat) : utf16s (n :: l) = utf16 n ++ utf16s l := rfl
theorem cons2 (a b : Nat) (l : List Nat) : [a, b] ++ l = a :: b :: l := rfl
theorem utf8_q : utf8 0x3F = [0x3F] := by decide
theorem cut8_q : cut8 0x3F = [0x3F] := by decide

theorem wide_one (u : Nat) (hE : u ≠ 0xE000) : wide16 [u] = decode16 [u] := by
  by_cases h : Half u
  · have : isHigh u ∨ isLow u := by rcases half_cases h with h | h | h; exact .inl h; exact .inr h; exact absurd h hE
    simp [wide16, decode16, h, this]
  · have : ¬ (isHigh u ∨ isLow u) := by rintro (h' | h'); exact h (high_half h'); exact h (low_half h')
    simp [wide16, decode16, h, this]

/-- where the two decodings go on together -/
theorem wide_both (u v : Nat) (l : List Nat) (hp : ¬ (isHigh u ∧ isLow v)) (hE : u ≠ 0xE000) (hl : ¬ (isLow u ∧ isLow v)) :
    ∃ n, (n = u ∨ n = 0x3F) ∧ wide16 (u :: v :: l) = n :: wide16 (v :: l) ∧ decode16 (u :: v :: l) = n :: decode16 (v :: l) := by
  by_cases h : Half u
  · have hs : isHigh u ∨ isLow u := by rcases half_cases h with h | h | h; exact .inl h; exact .inr h; exact absurd h hE
    have hv : ¬ isLow v := fun hv => hs.elim (fun h => hp ⟨h, hv⟩) (fun h => hl ⟨h, hv⟩)
    exact ⟨0x3F, .inr rfl, w16_lone u v l h hv, d16_lone u v l hs hv⟩
  · exact ⟨u, .inl rfl, w16_other u _ h, d16_other u _ (fun h' => h (high_half h')) (fun h' => h (low_half h'))⟩

/-- where they part: the first unit, and the first byte of its UTF-8 form, are already different -/
theorem wide_part (u v : Nat) (l : List Nat) (hp : ¬ (isHigh u ∧ isLow v)) (h : u = 0xE000 ∨ (isLow u ∧ isLow v)) :
    ∃ a b x y, wide16 (u :: v :: l) = a :: x ∧ decode16 (u :: v :: l) = b :: y ∧ a ≠ b ∧ (cut8 a).head? ≠ (utf8 b).head? := by
  have c8 : ∀ n, 0x10000 ≤ n → ∃ k, (cut8 n).head? = some k ∧ 0xF0 ≤ k := fun n hn => ⟨_, by unfold cut8; rw [if_neg (by omega)]; rfl, by omega⟩
  rcases h with h | ⟨hu, hv⟩
  · have d : decode16 (u :: v :: l) = u :: decode16 (v :: l) := d16_other u _ (by unfold isHigh; omega) (by unfold isLow; omega)
    have hd : (utf8 u).head? = some 0xEE := by subst h; decide
    by_cases hv : isLow v
    · obtain ⟨k, e, hk⟩ := c8 (0x10000 + (u - 0xD800) * 1024 + (v - 0xDC00)) (by omega)
      refine ⟨_, _, _, _, w16_pair u v l (by unfold Half; omega) hv, d, by omega, ?_⟩
      rw [e, hd]; intro h; injection h; omega
    · refine ⟨_, _, _, _, w16_lone u v l (by unfold Half; omega) hv, d, by omega, ?_⟩
      rw [cut8_q, hd]; decide
  · obtain ⟨k, e, hk⟩ := c8 (0x10000 + (u - 0xD800) * 1024 + (v - 0xDC00)) (by omega)
    refine ⟨_, _, _, _, w16_pair u v l (low_half hu) hv, d16_low u _ hu, by unfold isLow at *; omega, ?_⟩
    rw [e, utf8_q]; intro h; simp at h; omega

theorem cut8_of (n u : Nat) (hu : u < 65536) (h : n = u ∨ n = 0x3F) : cut8 n = utf8 n := by apply cut8_small; omega

theorem wide_iff (src : List Nat) (hx : ∀ x ∈ src, x < 65536) :
    (wide16 src = decode16 src ↔ Fine16 src) ∧ ((wide16 src).flatMap cut8 = utf8s (decode16 src) ↔ Fine16 src) := by
  induction src using pairs_ind with
  | h0 => exact ⟨⟨fun _ => trivial, fun _ => rfl⟩, ⟨fun _ => trivial, fun _ => rfl⟩⟩
  | h1 u =>
    by_cases hE : u = 0xE000
    · subst hE
      exact ⟨⟨fun h => absurd h (by decide), fun h => absurd rfl h⟩, ⟨fun h => absurd h (by decide), fun h => absurd rfl h⟩⟩
    · have e := wide_one u hE
      have d : ∃ n, decode16 [u] = [n] ∧ (n = u ∨ n = 0x3F) := by
        by_cases h : isHigh u ∨ isLow u
        · exact ⟨0x3F, by simp [decode16, h], .inr rfl⟩
        · exact ⟨u, by simp [decode16, h], .inl rfl⟩
      obtain ⟨n, d, hn⟩ := d
      refine ⟨⟨fun _ => hE, fun _ => e⟩, ⟨fun _ => hE, fun _ => ?_⟩⟩
      rw [e, d]; simp [utf8s, cut8_of n u (hx u (by simp)) hn]
  | h2 u v l hu hv ih =>
    obtain ⟨i1, i2⟩ := ih (fun x h => hx x (by simp [h]))
    have f : Fine16 (u :: v :: l) ↔ Fine16 l := by rw [Fine16, if_pos ⟨hu, hv⟩]
    rw [f, w16_pair u v l (high_half hu) hv, d16_pair u v l hu hv]
    refine ⟨by simp [i1], ?_⟩
    rw [utf8s_cons, List.flatMap_cons, cut8_small _ (by unfold isHigh isLow at *; omega)]
    simp [i2]
  | h3 u v l hp ih =>
    obtain ⟨i1, i2⟩ := ih (fun x h => hx x (by simp only [List.mem_cons] at h ⊢; exact .inr h))
    rw [Fine16, if_neg hp]
    by_cases hb : u = 0xE000 ∨ (isLow u ∧ isLow v)
    · obtain ⟨a, b, x, y, ew, ed, hab, hh⟩ := wide_part u v l hp hb
      have nf : ¬ (u ≠ 0xE000 ∧ ¬ (isLow u ∧ isLow v) ∧ Fine16 (v :: l)) := fun h => hb.elim h.1 h.2.1
      rw [ew, ed]
      refine ⟨⟨fun h => absurd (List.cons.inj h).1 hab, fun h => absurd h nf⟩, ⟨fun h => ?_, fun h => absurd h nf⟩⟩
      exfalso; apply hh
      have h1 := congrArg List.head? h
      have u8 : utf8s (b :: y) = utf8 b ++ utf8s y := rfl
      rw [List.flatMap_cons, u8, List.head?_append, List.head?_append] at h1
      have c : ∀ n, ∃ k, (cut8 n).head? = some k := fun n => by unfold cut8 utf8; repeat' split
                                                                all_goals exact ⟨_, rfl⟩
      have d : ∀ n, ∃ k, (utf8 n).head? = some k := fun n => by unfold utf8; repeat' split
                                                                all_goals exact ⟨_, rfl⟩
      obtain ⟨k, hk⟩ := c a
      obtain ⟨k', hk'⟩ := d b
      rw [hk, hk'] at h1 ⊢
      simpa using h1
    · rw [not_or] at hb
      obtain ⟨n, hn, ew, ed⟩ := wide_both u v l hp hb.1 hb.2
      have f : (u ≠ 0xE000 ∧ ¬ (isLow u ∧ isLow v) ∧ Fine16 (v :: l)) ↔ Fine16 (v :: l) := ⟨fun h => h.2.2, fun h => ⟨hb.1, hb.2, h⟩⟩
      rw [f, ew, ed]
      refine ⟨by simp [i1], ?_⟩
      rw [utf8s_cons, List.flatMap_cons, cut8_of n u (hx u (by simp)) hn]
      simp [i2]

theorem wide_scalar (src : List Nat) (hx : ∀ x ∈ src, x < 65536) : (∀ n ∈ wide16 src, Scalar n) ↔ Safe16 src := by
  have hq : Scalar 0x3F := by unfold Scalar; omega
  have oth : ∀ u, u < 65536 → ¬ Half u → Scalar u := fun u h h' => by unfold Half at h'; exact ⟨by omega, by omega⟩
  induction src using pairs_ind with
  | h0 => simp [wide16, Safe16]
  | h1 u =>
    refine ⟨fun _ => trivial, fun _ n hn => ?_⟩
    by_cases h : Half u
    · simp [wide16, h] at hn; rw [hn]; exact hq
    · simp [wide16, h] at hn; rw [hn]; exact oth u (hx u (by simp)) h
  | h2 u v l hu hv ih =>
    have i : (∀ n ∈ wide16 l, Scalar n) ↔ Safe16 l := ih (fun x h => hx x (by simp [h]))
    rw [Safe16, if_pos ⟨hu, hv⟩, ← i, w16_pair u v l (high_half hu) hv]
    simp [(pair_scalar u v hu hv).1]
  | h3 u v l hp ih =>
    have i : (∀ n ∈ wide16 (v :: l), Scalar n) ↔ Safe16 (v :: l) := ih (fun x h => hx x (by simp only [List.mem_cons] at h ⊢; exact .inr h))
    rw [Safe16, if_neg hp]
    by_cases hb : (isLow u ∨ u = 0xE000) ∧ isLow v
    · refine ⟨fun h => ?_, fun h => absurd hb h.1⟩
      have hh : Half u := by rcases hb.1 with h | h; exact low_half h; unfold Half; omega
      have := h (0x10000 + (u - 0xD800) * 1024 + (v - 0xDC00)) (by rw [w16_pair u v l hh hb.2]; simp)
      have := this.1
      have := hb.1; unfold isLow at this
      omega
    · by_cases h : Half u
      · have hv : ¬ isLow v := fun hv => by
          rcases half_cases h with h | h | h
          · exact hp ⟨h, hv⟩
          · exact hb ⟨.inl h, hv⟩
          · exact hb ⟨.inr h, hv⟩
        rw [w16_lone u v l h hv, ← i]; simp [hb, hq]
      · rw [w16_other u _ h, ← i]; simp [hb, oth u (hx u (by simp)) h]

theorem utf16_fine (l : List Nat) (hl : ∀ n ∈ l, Scalar n) : wide16 (utf16s l) = l.map fun n => if n = 0xE000 then 0x3F else n := by
  induction l with
  | nil => rfl
  | cons n l ih =>
    have ih := ih (fun m h => hl m (by simp [h]))
    have hn := hl n (by simp)
    have nolow : ∀ v x, utf16s l = v :: x → ¬ isLow v := by
      intro v x e hv
      cases l with
      | nil => cases e
      | cons m l =>
        have hm := hl m (by simp)
        have e : utf16 m ++ utf16s l = v :: x := e
        unfold utf16 at e
        unfold Scalar at hm; unfold isLow at hv
        split at e
        · have := (List.cons.inj e).1; omega
        · have := (List.cons.inj e).1; omega
    rw [utf16s_cons, List.map_cons, ← ih]
    unfold Scalar at hn
    unfold utf16
    split
    · by_cases hE : n = 0xE000
      · rw [if_pos hE]
        cases e : utf16s l with
        | nil => subst hE; decide
        | cons v x => exact w16_lone n v x (by unfold Half; omega) (nolow v x e)
      · rw [if_neg hE]; exact w16_other n _ (by unfold Half; omega)
    · rw [if_neg (by omega)]
      have := w16_pair (0xD800 + (n - 0x10000) / 1024) (0xDC00 + (n - 0x10000) % 1024) (utf16s l) (by unfold Half; omega) (by unfold isLow; omega)
      rw [cons2, this,
        show 0x10000 + (0xD800 + (n - 0x10000) / 1024 - 0xD800) * 1024 + (0xDC00 + (n - 0x10000) % 1024 - 0xDC00) = n by omega]

theorem cut8s (l : List Nat) (h : ∀ n ∈ l, n < 0x200000) : l.flatMap cut8 = utf8s l := by
  induction l with
  | nil => rfl
  | cons n l ih => rw [List.flatMap_cons, utf8s_cons, cut8_small n (h n (by simp)), ih fun m hm => h m (by simp [hm])]

theorem ok_inj {o o' b : List Nat} {c c' : Nat} (h : Res.ok ⟨b ++ o, c⟩ = Res.ok ⟨b ++ o', c'⟩) : o = o' := by
  injection h with h; injection h with h _; exact List.append_cancel_left h

theorem ok_iff {r : Res} {b o : List Nat} (h : ∃ c, r = .ok ⟨b ++ o, c⟩) (o' : List Nat) : (∃ c, r = .ok ⟨b ++ o', c⟩) ↔ o = o' := by
  obtain ⟨c, h⟩ := h
  refine ⟨fun ⟨c', h'⟩ => ok_inj (h.symm.trans h'), fun e => ⟨c, e ▸ h⟩⟩

/-- C07, C03: the result of the conversions from UTF-16, for every sequence of units. -/
theorem C07_utf16_exact (g : Grow) (hg : Good g) (ht : Total g) (src : List Nat) (hs : ∀ x ∈ src, x < 65536) (d : Dst) (hd : d.buf.length ≤ d.cap) :
    (∃ c, u16LEto32LE g src d = .ok ⟨d.buf ++ wide16 src, c⟩) ∧ (∃ c, u16LEto8 g src d = .ok ⟨d.buf ++ (wide16 src).flatMap cut8, c⟩) ∧
    (∃ c, u16BEto32LE g (src.map rev16) d = .ok ⟨d.buf ++ wide16 src, c⟩) ∧ (∃ c, u16BEto8 g (src.map rev16) d = .ok ⟨d.buf ++ (wide16 src).flatMap cut8, c⟩) ∧
    (∃ c, u16LEto32BE g src d = .ok ⟨d.buf ++ (wide16 src).map rev32, c⟩) ∧ (∃ c, u16BEto32BE g (src.map rev16) d = .ok ⟨d.buf ++ (wide16 src).map rev32, c⟩) := by
  refine ⟨?_, ?_, ?_, ?_, ?_, ?_⟩
  · have := (conv16_ok _ q bound16LEto32LE g hg src d hd).ok ht
    rwa [(out32_wide src hs).1] at this
  · have := (convG_ok _ 4 3 false bound16LEto8 g hg src d hd).1.ok ht
    rwa [(out8_wide src hs).1] at this
  · have := (conv16_ok _ q bound16BEto32LE g hg (src.map rev16) d hd).ok ht
    rwa [out16_BE32LE q 0 _ hs, (out32_wide src hs).1] at this
  · have := (convG_ok _ 4 3 true bound16BEto8 g hg (src.map rev16) d hd).1.ok ht
    rwa [out16_BE8 q 0 _ hs, (out8_wide src hs).1] at this
  · have := conv16LE_to_32BE g hg ht src d hd
    rwa [(out32_wide src hs).1] at this
  · have := (conv16_ok _ (swap32 q) bound16BEto32BE g hg (src.map rev16) d hd).ok ht
    rwa [out16_BE32BE q 0 _ hs, (out32_wide src hs).1] at this

/-- C07: the conversions from UTF-16 are the decoding with replacement exactly for the texts in `Fine16`, and yield Unicode text exactly for those in `Safe16`. -/
theorem C07_utf16_iff (g : Grow) (hg : Good g) (ht : Total g) (src : List Nat) (hs : ∀ x ∈ src, x < 65536) (d : Dst) (hd : d.buf.length ≤ d.cap) :
    ((∃ c, u16LEto32LE g src d = .ok ⟨d.buf ++ decode16 src, c⟩) ↔ Fine16 src) ∧
    ((∃ c, u16LEto8 g src d = .ok ⟨d.buf ++ utf8s (decode16 src), c⟩) ↔ Fine16 src) ∧
    ((∃ c, u16BEto32LE g (src.map rev16) d = .ok ⟨d.buf ++ decode16 src, c⟩) ↔ Fine16 src) ∧
    ((∃ c, u16BEto8 g (src.map rev16) d = .ok ⟨d.buf ++ utf8s (decode16 src), c⟩) ↔ Fine16 src) ∧
    ((∃ o c, u16LEto32LE g src d = .ok ⟨d.buf ++ o, c⟩ ∧ ∀ n ∈ o, Scalar n) ↔ Safe16 src) := by
  obtain ⟨h1, h2, h3, h4, -, -⟩ := C07_utf16_exact g hg ht src hs d hd
  obtain ⟨w1, w2⟩ := wide_iff src hs
  rw [ok_iff h1, ok_iff h2, ok_iff h3, ok_iff h4]
  refine ⟨w1, w2, w1, w2, ?_⟩
  rw [← wide_scalar src hs]
  constructor
  · rintro ⟨o, c, e, h⟩
    rw [(ok_iff h1 o).1 ⟨c, e⟩]; exact h
  · intro h
    obtain ⟨c, e⟩ := h1
    exact ⟨_, c, e, h⟩

/-- C03: the result for every well-formed text. -/
theorem C03_exact (g : Grow) (hg : Good g) (ht : Total g) (l : List Nat) (hl : ∀ n ∈ l, Scalar n) (d : Dst) (hd : d.buf.length ≤ d.cap) :
    (∃ c, u16LEto32LE g (utf16s l) d = .ok ⟨d.buf ++ l.map (fun n => if n = 0xE000 then 0x3F else n), c⟩) ∧
    (∃ c, u16LEto8 g (utf16s l) d = .ok ⟨d.buf ++ utf8s (l.map fun n => if n = 0xE000 then 0x3F else n), c⟩) ∧
    (∃ c, u16BEto32LE g ((utf16s l).map rev16) d = .ok ⟨d.buf ++ l.map (fun n => if n = 0xE000 then 0x3F else n), c⟩) ∧
    (∃ c, u16BEto8 g ((utf16s l).map rev16) d = .ok ⟨d.buf ++ utf8s (l.map fun n => if n = 0xE000 then 0x3F else n), c⟩) := by
  obtain ⟨h1, h2, h3, h4, -, -⟩ := C07_utf16_exact g hg ht (utf16s l) (utf16_lt l hl) d hd
  rw [utf16_fine l hl] at h1 h2 h3 h4
  rw [cut8s _ (by
    intro n hn
    obtain ⟨m, hm, rfl⟩ := List.mem_map.1 hn
    have := (hl m hm).1
    split <;> omega)] at h2 h4
  exact ⟨h1, h2, h3, h4⟩

/-- C03: a well-formed text is decoded correctly exactly if it does not contain U+E000. -/
theorem C03_iff (g : Grow) (hg : Good g) (ht : Total g) (l : List Nat) (hl : ∀ n ∈ l, Scalar n) (d : Dst) (hd : d.buf.length ≤ d.cap) :
    ((∃ c, u16LEto32LE g (utf16s l) d = .ok ⟨d.buf ++ l, c⟩) ↔ 0xE000 ∉ l) ∧ ((∃ c, u16LEto8 g (utf16s l) d = .ok ⟨d.buf ++ utf8s l, c⟩) ↔ 0xE000 ∉ l) := by
  obtain ⟨h1, h2, -, -⟩ := C03_exact g hg ht l hl d hd
  rw [ok_iff h1, ok_iff h2]
  have back : 0xE000 ∉ l → l.map (fun n => if n = 0xE000 then 0x3F else n) = l := by
    intro h
    conv => rhs; rw [← List.map_id l]
    apply List.map_congr_left
    intro n hn
    exact if_neg fun e => h (by rw [← e]; exact hn)
  refine ⟨⟨fun e h => ?_, back⟩, ⟨fun e h => ?_, fun h => by rw [back h]⟩⟩
  · have : 0xE000 ∈ l.map (fun n => if n = 0xE000 then 0x3F else n) := by rw [e]; exact h
    obtain ⟨m, -, hm⟩ := List.mem_map.1 this
    split at hm <;> omega
  · have len : ∀ l : List Nat, 0xE000 ∈ l → (utf8s (l.map fun n => if n = 0xE000 then 0x3F else n)).length < (utf8s l).length := by
      have len1 : ∀ n : Nat, (utf8 (if n = 0xE000 then 0x3F else n)).length ≤ (utf8 n).length := by
        intro n; split
        · rename_i h; subst h; decide
        · exact Nat.le_refl _
      have lenl : ∀ l : List Nat, (utf8s (l.map fun n => if n = 0xE000 then 0x3F else n)).length ≤ (utf8s l).length := by
        intro l
        induction l with
        | nil => exact Nat.le_refl _
        | cons n l ih => rw [List.map_cons, utf8s_cons, utf8s_cons, List.length_append, List.length_append]; exact Nat.add_le_add (len1 n) ih
      intro l h
      induction l with
      | nil => simp at h
      | cons n l ih =>
        rw [List.map_cons, utf8s_cons, utf8s_cons, List.length_append, List.length_append]
        rcases List.mem_cons.1 h with h | h
        · have : (utf8 (if n = 0xE000 then 0x3F else n)).length < (utf8 n).length := by subst h; decide
          exact Nat.add_lt_add_of_lt_of_le this (lenl l)
        · exact Nat.add_lt_add_of_le_of_lt (len1 n) (ih h)
    have := len l h
    rw [e] at this; omega

/-- non-vacuity: a text in `Fine16` with every kind of lone surrogate, one in `Safe16` only, one in neither -/
theorem C07_utf16_example : Fine16 [0xD83D, 0xDE00, 0xDE00, 0x41, 0xD800, 0xD800, 0xDC00, 0xDC01] ∧
    decode16 [0xD83D, 0xDE00, 0xDE00, 0x41, 0xD800, 0xD800, 0xDC00, 0xDC01] = [0x1F600, 0x3F, 0x41, 0x3F, 0x10000, 0x3F] ∧
    Safe16 [0xE000, 0x41] ∧ ¬ Fine16 [0xE000, 0x41] ∧ ¬ Safe16 [0xDC00, 0xDC00] ∧ ¬ Safe16 [0xE000, 0xDC00] := by
  refine ⟨?_, by decide, ?_, ?_, ?_, ?_⟩ <;> simp [Fine16, Safe16, isHigh, isLow]

end Verif.Utf
