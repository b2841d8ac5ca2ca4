import Verif.Utf.Props
/-! # C07: ill-formed input -/
namespace Verif.Utf
open Spec

/-! ## UTF-16 sources -/
theorem d16_other (u : Nat) (l : List Nat) (h : ¬ isHigh u) (h' : ¬ isLow u) : decode16 (u :: l) = u :: decode16 l := by
  cases l with
  | nil => simp [decode16, h, h']
  | cons v l => simp [decode16, h, h']

theorem d16_low (u : Nat) (l : List Nat) (h : isLow u) : decode16 (u :: l) = 0x3F :: decode16 l := by
  have h' : ¬ isHigh u := by unfold isHigh; unfold isLow at h; omega
  cases l with
  | nil => simp [decode16, h]
  | cons v l => simp [decode16, h, h']

theorem d16_lone (u v : Nat) (l : List Nat) (h : isHigh u ∨ isLow u) (hv : ¬ isLow v) : decode16 (u :: v :: l) = 0x3F :: decode16 (v :: l) := by
  rcases h with h | h
  · rw [decode16, if_neg (by simp [hv]), if_pos (.inl h)]
  · exact d16_low _ _ h

theorem d16_pair (u v : Nat) (l : List Nat) (h : isHigh u) (hv : isLow v) :
    decode16 (u :: v :: l) = (0x10000 + (u - 0xD800) * 1024 + (v - 0xDC00)) :: decode16 l := by
  rw [decode16, if_pos ⟨h, hv⟩]

/-- no two adjacent units are both low surrogates -/
def NoLowLow : List Nat → Prop
  | [] => True
  | [_] => True
  | u :: v :: l => ¬ (isLow u ∧ isLow v) ∧ NoLowLow (v :: l)

theorem NoLowLow.tail {u l} (h : NoLowLow (u :: l)) : NoLowLow l := by
  cases l with
  | nil => trivial
  | cons v l => exact h.2

theorem s32_pend (u v : Nat) (hu : u ≠ 0) (hv : ¬ isLow v) : step16LEto32LE u v = (q :: (step16LEto32LE 0 v).1, (step16LEto32LE 0 v).2) := by
  unfold isLow at hv
  have h1 : ¬ (u ≠ 0 ∧ v ≥ 0xDC00 ∧ v < 0xE000) := by omega
  have h2 : ¬ ((0 : Nat) ≠ 0 ∧ v ≥ 0xDC00 ∧ v < 0xE000) := by omega
  unfold step16LEto32LE
  rw [if_neg h1, if_neg h2, if_pos hu, if_neg (show ¬ (0 : Nat) ≠ 0 by omega)]
  split <;> rfl

theorem s8_pend (u v : Nat) (hu : u ≠ 0) (hv : ¬ isLow v) : step16LEto8 u v = (q :: (step16LEto8 0 v).1, (step16LEto8 0 v).2) := by
  unfold isLow at hv
  have h1 : ¬ (u ≠ 0 ∧ v ≥ 0xDC00 ∧ v < 0xE000) := by omega
  have h2 : ¬ ((0 : Nat) ≠ 0 ∧ v ≥ 0xDC00 ∧ v < 0xE000) := by omega
  unfold step16LEto8
  rw [if_neg h1, if_neg h2, if_pos hu, if_neg (show ¬ (0 : Nat) ≠ 0 by omega)]
  (repeat' split) <;> rfl

theorem s32_zero_sur (v : Nat) (h : isHigh v ∨ isLow v) : step16LEto32LE 0 v = ([], v) := by
  unfold isHigh isLow at h
  unfold step16LEto32LE
  rw [if_neg (by omega)]; simp only [ne_eq, not_true_eq_false, if_false]; rw [if_pos (by omega)]

theorem s8_zero_sur (v : Nat) (h : isHigh v ∨ isLow v) : step16LEto8 0 v = ([], v) := by
  unfold isHigh isLow at h
  unfold step16LEto8
  rw [if_neg (by omega)]; simp only [ne_eq, not_true_eq_false, if_false]
  rw [if_neg (by omega), if_neg (by omega), if_neg (by omega)]

theorem scalar_other (v : Nat) (hv : v < 65536) (h : ¬ isHigh v) (h' : ¬ isLow v) : Scalar v ∧ utf16 v = [v] := by
  unfold isHigh isLow at *
  exact ⟨⟨by omega, by omega⟩, by rw [utf16, if_pos hv]⟩

theorem pair_scalar (u v : Nat) (h : isHigh u) (hv : isLow v) :
    Scalar (0x10000 + (u - 0xD800) * 1024 + (v - 0xDC00)) ∧ utf16 (0x10000 + (u - 0xD800) * 1024 + (v - 0xDC00)) = [u, v] := by
  unfold isHigh isLow at *
  refine ⟨⟨by omega, by omega⟩, ?_⟩
  rw [utf16, if_neg (by omega)]
  rw [show 0xD800 + (0x10000 + (u - 0xD800) * 1024 + (v - 0xDC00) - 0x10000) / 1024 = u by omega,
    show 0xDC00 + (0x10000 + (u - 0xD800) * 1024 + (v - 0xDC00) - 0x10000) % 1024 = v by omega]

theorem out16_32_any : ∀ (src : List Nat), (∀ x ∈ src, x < 65536 ∧ x ≠ 0xE000) →
    (NoLowLow src → out16 step16LEto32LE q 0 src = decode16 src) ∧
    (∀ u, isHigh u ∨ isLow u → NoLowLow (u :: src) → out16 step16LEto32LE q u src = decode16 (u :: src)) := by
  intro src
  induction src with
  | nil =>
    intro _
    refine ⟨fun _ => rfl, fun u hu _ => ?_⟩
    have : u ≠ 0 := by unfold isHigh isLow at hu; omega
    simp [out16, this, decode16, hu, q]
  | cons v src ih =>
    intro hx
    obtain ⟨hv, hE⟩ := hx v (by simp)
    obtain ⟨ih1, ih2⟩ := ih (fun x h => hx x (by simp [h]))
    have first : NoLowLow (v :: src) → out16 step16LEto32LE q 0 (v :: src) = decode16 (v :: src) := by
      intro hn
      by_cases hs : isHigh v ∨ isLow v
      · rw [out16, s32_zero_sur v hs]
        exact ih2 v hs hn
      · rw [not_or] at hs
        rw [d16_other v src hs.1 hs.2, ← ih1 hn.tail]
        obtain ⟨h1, h2⟩ := scalar_other v hv hs.1 hs.2
        have := out16_32_utf16 q v h1 hE src
        rw [h2] at this; exact this
    refine ⟨first, fun u hu hn => ?_⟩
    have u0 : u ≠ 0 := by unfold isHigh isLow at hu; omega
    by_cases hl : isLow v
    · have hh : isHigh u := hu.resolve_right fun h => hn.1 ⟨h, hl⟩
      rw [d16_pair u v src hh hl, ← ih1 hn.tail.tail]
      obtain ⟨h1, h2⟩ := pair_scalar u v hh hl
      have hne : 0x10000 + (u - 0xD800) * 1024 + (v - 0xDC00) ≠ 0xE000 := by omega
      have := out16_32_utf16 q _ h1 hne src
      rw [h2] at this
      simp only [List.cons_append, List.nil_append] at this
      rw [out16, s32_zero_sur u hu] at this
      exact this
    · rw [d16_lone u v src hu hl, ← first hn.tail, out16, out16, s32_pend u v u0 hl]; rfl

theorem out16_8_any : ∀ (src : List Nat), (∀ x ∈ src, x < 65536 ∧ x ≠ 0xE000) →
    (NoLowLow src → out16 step16LEto8 q 0 src = utf8s (decode16 src)) ∧
    (∀ u, isHigh u ∨ isLow u → NoLowLow (u :: src) → out16 step16LEto8 q u src = utf8s (decode16 (u :: src))) := by
  intro src
  induction src with
  | nil =>
    intro _
    refine ⟨fun _ => rfl, fun u hu _ => ?_⟩
    have : u ≠ 0 := by unfold isHigh isLow at hu; omega
    simp [out16, this, decode16, hu, q, utf8s, utf8]
  | cons v src ih =>
    intro hx
    obtain ⟨hv, hE⟩ := hx v (by simp)
    obtain ⟨ih1, ih2⟩ := ih (fun x h => hx x (by simp [h]))
    have first : NoLowLow (v :: src) → out16 step16LEto8 q 0 (v :: src) = utf8s (decode16 (v :: src)) := by
      intro hn
      by_cases hs : isHigh v ∨ isLow v
      · rw [out16, s8_zero_sur v hs]
        exact ih2 v hs hn
      · rw [not_or] at hs
        rw [d16_other v src hs.1 hs.2]
        obtain ⟨h1, h2⟩ := scalar_other v hv hs.1 hs.2
        have := out16_8_utf16 q v h1 hE src
        rw [h2, ih1 hn.tail] at this; exact this
    refine ⟨first, fun u hu hn => ?_⟩
    have u0 : u ≠ 0 := by unfold isHigh isLow at hu; omega
    by_cases hl : isLow v
    · have hh : isHigh u := hu.resolve_right fun h => hn.1 ⟨h, hl⟩
      rw [d16_pair u v src hh hl]
      obtain ⟨h1, h2⟩ := pair_scalar u v hh hl
      have hne : 0x10000 + (u - 0xD800) * 1024 + (v - 0xDC00) ≠ 0xE000 := by omega
      have := out16_8_utf16 q _ h1 hne src
      rw [h2, ih1 hn.tail.tail] at this
      simp only [List.cons_append, List.nil_append] at this
      rw [out16, s8_zero_sur u hu] at this
      exact this
    · rw [d16_lone u v src hu hl]
      have e := first hn.tail
      rw [out16] at e
      rw [out16, s8_pend u v u0 hl, List.cons_append, e]; rfl

/-- the reference decoding yields scalar values only -/
theorem decode16_scalar (src : List Nat) (h : ∀ x ∈ src, x < 65536) : ∀ n ∈ decode16 src, Scalar n := by
  have hq : Scalar 0x3F := by unfold Scalar; omega
  have key : ∀ k (src : List Nat), src.length ≤ k → (∀ x ∈ src, x < 65536) → ∀ n ∈ decode16 src, Scalar n := by
    intro k
    induction k with
    | zero =>
      intro src h
      have : src = [] := by cases src; rfl; simp at h
      subst this; simp [decode16]
    | succ k ih =>
      intro src hk hx n hn
      cases src with
      | nil => simp [decode16] at hn
      | cons u l =>
        have ihl := ih l (by simp at hk; omega) (fun x h => hx x (by simp [h]))
        by_cases hu : isHigh u
        · cases l with
          | nil => simp [decode16, hu] at hn; subst hn; exact hq
          | cons v l =>
            by_cases hv : isLow v
            · rw [d16_pair u v l hu hv, List.mem_cons] at hn
              rcases hn with hn | hn
              · rw [hn]; exact (pair_scalar u v hu hv).1
              · exact ih l (by simp at hk; omega) (fun x h => hx x (by simp [h])) n hn
            · rw [d16_lone u v l (.inl hu) hv, List.mem_cons] at hn
              rcases hn with rfl | hn
              · exact hq
              · exact ihl n hn
        · by_cases hl : isLow u
          · rw [d16_low u l hl, List.mem_cons] at hn
            rcases hn with rfl | hn
            · exact hq
            · exact ihl n hn
          · rw [d16_other u l hu hl, List.mem_cons] at hn
            rcases hn with rfl | hn
            · exact (scalar_other _ (hx _ (by simp)) hu hl).1
            · exact ihl n hn
  exact key _ src (Nat.le_refl _) h

/-- C07 for UTF-16 sources without U+E000 and without two adjacent low surrogates (lone surrogates are allowed anywhere): the output is the decoding with replacement,
which consists of scalar values. (Missing: the excluded inputs, see `C07_utf16_fails`.) -/
theorem C07_utf16_partial (g : Grow) (hg : Good g) (ht : Total g) (src : List Nat) (hs : ∀ x ∈ src, x < 65536 ∧ x ≠ 0xE000) (hn : NoLowLow src)
    (d : Dst) (hd : d.buf.length ≤ d.cap) :
    (∃ c, u16LEto32LE g src d = .ok ⟨d.buf ++ decode16 src, c⟩) ∧ (∃ c, u16LEto8 g src d = .ok ⟨d.buf ++ utf8s (decode16 src), c⟩) ∧
    (∃ c, u16BEto32LE g (src.map rev16) d = .ok ⟨d.buf ++ decode16 src, c⟩) ∧ (∃ c, u16BEto8 g (src.map rev16) d = .ok ⟨d.buf ++ utf8s (decode16 src), c⟩) ∧
    ∀ n ∈ decode16 src, Scalar n := by
  have hlt : ∀ x ∈ src, x < 65536 := fun x h => (hs x h).1
  refine ⟨?_, ?_, ?_, ?_, decode16_scalar src hlt⟩
  · have := (conv16_ok _ q bound16LEto32LE g hg src d hd).ok ht
    rwa [(out16_32_any src hs).1 hn] at this
  · have := (convG_ok _ 4 3 false bound16LEto8 g hg src d hd).1.ok ht
    rwa [(out16_8_any src hs).1 hn] at this
  · have := (conv16_ok _ q bound16BEto32LE g hg (src.map rev16) d hd).ok ht
    rwa [out16_BE32LE q 0 _ hlt, (out16_32_any src hs).1 hn] at this
  · have := (convG_ok _ 4 3 true bound16BEto8 g hg (src.map rev16) d hd).1.ok ht
    rwa [out16_BE8 q 0 _ hlt, (out16_8_any src hs).1 hn] at this

/-- non-vacuity: a lone high, a lone low, a pair, a lone high at the end -/
example : (∀ x ∈ [0xD800, 0x41, 0xDC00, 0x42, 0xD83D, 0xDE00, 0xD800], x < 65536 ∧ x ≠ 0xE000) ∧ NoLowLow [0xD800, 0x41, 0xDC00, 0x42, 0xD83D, 0xDE00, 0xD800] ∧
    decode16 [0xD800, 0x41, 0xDC00, 0x42, 0xD83D, 0xDE00, 0xD800] = [0x3F, 0x41, 0x3F, 0x42, 0x1F600, 0x3F] := by
  refine ⟨?_, ?_, by decide⟩
  · intro x hx; simp at hx; omega
  · simp [NoLowLow, isLow]

/-- C07 does not hold for UTF-16 sources: two low surrogates give the code point 0x110000, which is none. -/
theorem C07_utf16_fails : u16LEto32LE codeGrow [0xDC00, 0xDC00] ⟨[], 0⟩ = .ok ⟨[0x110000], 15⟩ ∧ ¬ Scalar 0x110000 ∧
    u16LEto8 codeGrow [0xDC00, 0xDC00] ⟨[], 0⟩ = .ok ⟨[0xF4, 0x90, 0x80, 0x80], 15⟩ := by
  refine ⟨by decide, by unfold Scalar; omega, by decide⟩

/-! ## UTF-8 sources -/
theorem stray32 (b : Nat) (rest : List Nat) (h : (0x80 ≤ b ∧ b < 0xC0) ∨ (0xFE ≤ b ∧ b < 0x100)) : step8to32LE b rest = some ([q], 0) := by
  unfold step8to32LE
  rcases h with h | h
  · repeat rw [if_neg (by omega)]
    rw [if_pos (by omega)]
  · rw [if_pos (by omega)]

theorem stray16 (b : Nat) (rest : List Nat) (h : (0x80 ≤ b ∧ b < 0xC0) ∨ (0xFE ≤ b ∧ b < 0x100)) : step8to16LE b rest = some ([q], 0) := by
  unfold step8to16LE
  rcases h with h | h
  · repeat rw [if_neg (by omega)]
    rw [if_pos (by omega)]
  · rw [if_pos (by omega)]

theorem not_cont (c : Nat) (hc : c < 0x80 ∨ (0xC0 ≤ c ∧ c < 0x100)) : cont c = false := by
  cases h : cont c with
  | false => rfl
  | true => have := (cont_iff c (by omega)).1 h; omega

theorem lead32 (b c : Nat) (bs : List Nat) (h : 0xC0 ≤ b ∧ b < 0xFE) (hc : c < 0x80 ∨ (0xC0 ≤ c ∧ c < 0x100)) (hn : need b ≤ bs.length + 1) :
    step8to32LE b (c :: bs) = some ([q], 0) := by
  have hc' := not_cont c hc
  unfold step8to32LE need at *
  by_cases h1 : b ≥ 0xFC
  · rw [if_neg (by omega), if_pos h1]
    repeat rw [if_neg (by omega)] at hn
    match bs, hn with
    | b2 :: b3 :: b4 :: b5 :: _, _ => simp [hc']
    | [], hn => simp at hn
    | [_], hn => simp at hn
    | [_, _], hn => simp at hn
    | [_, _, _], hn => simp at hn
  · by_cases h2 : b ≥ 0xF8
    · rw [if_neg (by omega), if_neg (by omega), if_pos h2]
      rw [if_neg (by omega), if_neg (by omega), if_neg (by omega), if_pos (by omega)] at hn
      match bs, hn with
      | b2 :: b3 :: b4 :: _, _ => simp [hc']
      | [], hn => simp at hn
      | [_], hn => simp at hn
      | [_, _], hn => simp at hn
    · by_cases h3 : b ≥ 0xF0
      · rw [if_neg (by omega), if_neg (by omega), if_neg (by omega), if_pos h3]
        rw [if_neg (by omega), if_neg (by omega), if_pos (by omega)] at hn
        match bs, hn with
        | b2 :: b3 :: _, _ => simp [hc']
        | [], hn => simp at hn
        | [_], hn => simp at hn
      · by_cases h4 : b ≥ 0xE0
        · rw [if_neg (by omega), if_neg (by omega), if_neg (by omega), if_neg (by omega), if_pos h4]
          rw [if_neg (by omega), if_pos (by omega)] at hn
          match bs, hn with
          | b2 :: _, _ => simp [hc']
          | [], hn => simp at hn
        · rw [if_neg (by omega), if_neg (by omega), if_neg (by omega), if_neg (by omega), if_neg (by omega), if_pos (by omega)]
          simp [hc']

theorem lead16 (b c : Nat) (bs : List Nat) (h : 0xC0 ≤ b ∧ b < 0xFE) (hc : c < 0x80 ∨ (0xC0 ≤ c ∧ c < 0x100)) (hn : need b ≤ bs.length + 1) :
    step8to16LE b (c :: bs) = some ([q], 0) := by
  have hc' := not_cont c hc
  unfold step8to16LE need at *
  by_cases h2 : b ≥ 0xF8
  · rw [if_pos h2]
  · by_cases h3 : b ≥ 0xF0
    · rw [if_neg (by omega), if_pos h3]
      rw [if_neg (by omega), if_neg (by omega), if_pos (by omega)] at hn
      match bs, hn with
      | b2 :: b3 :: _, _ => simp [hc']
      | [], hn => simp at hn
      | [_], hn => simp at hn
    · by_cases h4 : b ≥ 0xE0
      · rw [if_neg (by omega), if_neg (by omega), if_pos h4]
        rw [if_neg (by omega), if_pos (by omega)] at hn
        match bs, hn with
        | b2 :: _, _ => simp [hc']
        | [], hn => simp at hn
      · rw [if_neg (by omega), if_neg (by omega), if_neg (by omega), if_pos (by omega)]
        simp [hc']

theorem out8_scan {src out} (h : Scan src out) : out8 step8to32LE q src = out ∧ out8 step8to16LE q src = utf16s out := by
  have hq : utf16 0x3F = [0x3F] := by decide
  induction h with
  | nil => simp [out8, utf16s]
  | good n bs out h hs ih =>
    have e := out8_32_enc q n (by have := h.1; omega) bs
    rw [enc8_spec n (by have := h.1; omega), ih.1] at e
    have e' := out8_16_enc q n h.1 bs
    rw [ih.2] at e'
    exact ⟨e, e'⟩
  | stray b bs out h hs ih =>
    rw [out8_cons (stray32 b bs h), out8_cons (stray16 b bs h), List.drop_zero, ih.1, ih.2]
    exact ⟨rfl, by rw [show utf16s (0x3F :: out) = utf16 0x3F ++ utf16s out from rfl, hq]; rfl⟩
  | lead b c bs out h hc hn hs ih =>
    rw [out8_cons (lead32 b c bs h hc hn), out8_cons (lead16 b c bs h hc hn), List.drop_zero, ih.1, ih.2]
    exact ⟨rfl, by rw [show utf16s (0x3F :: out) = utf16 0x3F ++ utf16s out from rfl, hq]; rfl⟩

/-- C07 for UTF-8 sources in which ill-formed parts are stray continuation bytes, bytes 0xFE/0xFF, and lead bytes followed by a non-continuation byte with enough bytes left: each
ill-formed byte gives '?', and every well-formed character survives. (Missing: ill-formed parts near the end, overlong forms, encoded surrogates, see `C07_utf8_fails`.) -/
theorem C07_utf8_partial (g : Grow) (hg : Good g) (ht : Total g) (src out : List Nat) (hs : Scan src out) (d : Dst) (hd : d.buf.length ≤ d.cap) :
    (∃ c, u8to32LE g src d = .ok ⟨d.buf ++ out, c⟩) ∧ (∃ c, u8to16LE g src d = .ok ⟨d.buf ++ utf16s out, c⟩) ∧
    (∃ c, u8to16BE g src d = .ok ⟨d.buf ++ (utf16s out).map rev16, c⟩) ∧ (∀ n ∈ out, Scalar n) := by
  obtain ⟨e1, e2⟩ := out8_scan hs
  refine ⟨?_, ?_, ?_, ?_⟩
  · have := (conv8_ok _ q bound8to32LE g hg src d hd).ok ht
    rwa [e1] at this
  · have := (conv8_ok _ q bound8to16LE g hg src d hd).ok ht
    rwa [e2] at this
  · have := (conv8_ok _ (swap16 q) bound8to16BE g hg src d hd).ok ht
    rwa [out8_16BE, e2, map_swap16] at this
  · have hq : Scalar 0x3F := by unfold Scalar; omega
    clear e1 e2
    induction hs with
    | nil => simp
    | good n bs out h hs ih =>
      intro m hm; rcases List.mem_cons.1 hm with rfl | hm
      · exact h
      · exact ih m hm
    | stray b bs out h hs ih =>
      intro m hm; rcases List.mem_cons.1 hm with rfl | hm
      · exact hq
      · exact ih m hm
    | lead b c bs out h hc hn hs ih =>
      intro m hm; rcases List.mem_cons.1 hm with rfl | hm
      · exact hq
      · exact ih m hm

/-- non-vacuity: a stray continuation byte, then a broken three byte lead, then "AB", then U+4E2D -/
example : Scan [0x80, 0xE4, 0x41, 0x42, 0xE4, 0xB8, 0xAD] [0x3F, 0x3F, 0x41, 0x42, 0x4E2D] := by
  refine .stray 0x80 _ _ (by omega) (.lead 0xE4 0x41 _ _ (by omega) (by omega) (by decide) ?_)
  have s : ∀ n, n ∈ [0x41, 0x42, 0x4E2D] → Scalar n := by intro n hn; simp at hn; unfold Scalar; omega
  exact .good 0x41 _ _ (s _ (by simp)) (.good 0x42 _ _ (s _ (by simp)) (.good 0x4E2D [] _ (s _ (by simp)) .nil))

/-- C07 does not hold for UTF-8 sources: (1) a broken lead byte near the end swallows the well-formed rest; (2) an overlong form is decoded; (3) an encoded surrogate is passed on,
giving ill-formed UTF-16; (4) an overlong four byte form gives a non-surrogate pair. -/
theorem C07_utf8_fails :
    u8to32LE codeGrow [0xE4, 0x41] ⟨[], 0⟩ = .ok ⟨[0x3F], 15⟩ ∧
    u8to32LE codeGrow [0xC0, 0x80] ⟨[], 0⟩ = .ok ⟨[0], 15⟩ ∧
    u8to16LE codeGrow [0xED, 0xA0, 0x80] ⟨[], 0⟩ = .ok ⟨[0xD800], 15⟩ ∧
    u8to16LE codeGrow [0xF0, 0x80, 0x80, 0x80] ⟨[], 0⟩ = .ok ⟨[0xD7C0, 0xDC00], 15⟩ := by
  refine ⟨?_, ?_, ?_, ?_⟩
  all_goals (first | unfold u8to32LE | unfold u8to16LE) <;>
    (unfold conv8; simp [loop8, lock, codeGrow, growRealloc, puts, put, step8to32LE, step8to16LE, cont, q])

#print axioms C07_utf16_partial
#print axioms C07_utf16_fails
#print axioms C07_utf8_partial
#print axioms C07_utf8_fails
end Verif.Utf
