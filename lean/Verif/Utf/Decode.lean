import Verif.Utf.Lemmas
namespace Verif.Utf

theorem cont_80 (b : Nat) (h : b < 64) : cont (0x80 + b) = true := (cont_iff _ (by omega)).2 (by omega)

/-- the UTF-8 conversion loops, one encoded character of each length -/
theorem step32_1 (a : Nat) (rest) (h : a < 0x80) : step8to32LE a rest = some ([a], 0) := by
  unfold step8to32LE
  repeat rw [if_neg (by omega)]
theorem step32_2 (a b : Nat) (rest) (ha : a < 32) (hb : b < 64) : step8to32LE (0xC0 + a) ((0x80 + b) :: rest) = some ([a * 64 + b], 1) := by
  unfold step8to32LE
  repeat rw [if_neg (by omega)]
  rw [if_pos (by omega)]
  simp only [cont_80 b hb, if_true, dec2]
  rw [show (0xC0 + a) % 32 * 64 + (0x80 + b) % 64 = a * 64 + b by omega]
theorem step32_3 (a b c : Nat) (rest) (ha : a < 16) (hb : b < 64) (hc : c < 64) :
    step8to32LE (0xE0 + a) ((0x80 + b) :: (0x80 + c) :: rest) = some ([a * 4096 + b * 64 + c], 2) := by
  unfold step8to32LE
  repeat rw [if_neg (by omega)]
  rw [if_pos (by omega)]
  simp only [cont_80 b hb, cont_80 c hc, Bool.and_self, if_true, dec3]
  rw [show (0xE0 + a) % 16 * 4096 + (0x80 + b) % 64 * 64 + (0x80 + c) % 64 = a * 4096 + b * 64 + c by omega]
theorem step32_4 (a b c d : Nat) (rest) (ha : a < 8) (hb : b < 64) (hc : c < 64) (hd : d < 64) :
    step8to32LE (0xF0 + a) ((0x80 + b) :: (0x80 + c) :: (0x80 + d) :: rest) = some ([a * 262144 + b * 4096 + c * 64 + d], 3) := by
  unfold step8to32LE
  repeat rw [if_neg (by omega)]
  rw [if_pos (by omega)]
  simp only [cont_80 b hb, cont_80 c hc, cont_80 d hd, Bool.and_self, if_true, dec4]
  rw [show (0xF0 + a) % 8 * 262144 + (0x80 + b) % 64 * 4096 + (0x80 + c) % 64 * 64 + (0x80 + d) % 64 = a * 262144 + b * 4096 + c * 64 + d by omega]
theorem step32_5 (a b c d e : Nat) (rest) (ha : a < 4) (hb : b < 64) (hc : c < 64) (hd : d < 64) (he : e < 64) :
    step8to32LE (0xF8 + a) ((0x80 + b) :: (0x80 + c) :: (0x80 + d) :: (0x80 + e) :: rest) = some ([a * 16777216 + b * 262144 + c * 4096 + d * 64 + e], 4) := by
  unfold step8to32LE
  repeat rw [if_neg (by omega)]
  rw [if_pos (by omega)]
  simp only [cont_80 b hb, cont_80 c hc, cont_80 d hd, cont_80 e he, Bool.and_self, if_true, dec5]
  rw [show (0xF8 + a) % 4 * 16777216 + (0x80 + b) % 64 * 262144 + (0x80 + c) % 64 * 4096 + (0x80 + d) % 64 * 64 + (0x80 + e) % 64
    = a * 16777216 + b * 262144 + c * 4096 + d * 64 + e by omega]

/-- what the big-endian copy does differently: the '?' of a broken six byte form is not swapped -/
theorem step32BE_eq (ch : Nat) (rest : List Nat) :
    step8to32BE ch rest = (step8to32LE ch rest).map (fun p => (p.1.map swap32, p.2)) ∨
    (step8to32BE ch rest = some ([q], 0) ∧ step8to32LE ch rest = some ([q], 0) ∧ 0xFC ≤ ch) := by
  unfold step8to32BE step8to32LE
  repeat' split
  all_goals first | (left; rfl) | (right; exact ⟨rfl, rfl, by omega⟩)

theorem step16BE_eq (ch : Nat) (rest : List Nat) : step8to16BE ch rest = (step8to16LE ch rest).map (fun p => (p.1.map swap16, p.2)) := by
  unfold step8to16BE step8to16LE
  repeat' split
  all_goals rfl

theorem step16_1 (a : Nat) (rest) (h : a < 0x80) : step8to16LE a rest = some ([a], 0) := by
  unfold step8to16LE
  repeat rw [if_neg (by omega)]
theorem step16_2 (a b : Nat) (rest) (ha : a < 32) (hb : b < 64) : step8to16LE (0xC0 + a) ((0x80 + b) :: rest) = some ([a * 64 + b], 1) := by
  unfold step8to16LE
  repeat rw [if_neg (by omega)]
  rw [if_pos (by omega)]
  simp only [cont_80 b hb, if_true, dec2]
  rw [show ((0xC0 + a) % 32 * 64 + (0x80 + b) % 64) % 2 ^ 16 = a * 64 + b by omega]
theorem step16_3 (a b c : Nat) (rest) (ha : a < 16) (hb : b < 64) (hc : c < 64) :
    step8to16LE (0xE0 + a) ((0x80 + b) :: (0x80 + c) :: rest) = some ([a * 4096 + b * 64 + c], 2) := by
  unfold step8to16LE
  repeat rw [if_neg (by omega)]
  rw [if_pos (by omega)]
  simp only [cont_80 b hb, cont_80 c hc, Bool.and_self, if_true, dec3]
  rw [show ((0xE0 + a) % 16 * 4096 + (0x80 + b) % 64 * 64 + (0x80 + c) % 64) % 2 ^ 16 = a * 4096 + b * 64 + c by omega]
theorem step16_4 (a b c d : Nat) (rest) (ha : a < 8) (hb : b < 64) (hc : c < 64) (hd : d < 64)
    (hn : 0x10000 ≤ a * 262144 + b * 4096 + c * 64 + d ∧ a * 262144 + b * 4096 + c * 64 + d < 0x110000) :
    step8to16LE (0xF0 + a) ((0x80 + b) :: (0x80 + c) :: (0x80 + d) :: rest) =
      some ([0xD800 + (a * 262144 + b * 4096 + c * 64 + d - 0x10000) / 1024, 0xDC00 + (a * 262144 + b * 4096 + c * 64 + d - 0x10000) % 1024], 3) := by
  unfold step8to16LE
  repeat rw [if_neg (by omega)]
  rw [if_pos (by omega)]
  simp only [cont_80 b hb, cont_80 c hc, cont_80 d hd, Bool.and_self, if_true, dec4, shr10, and3FF]
  rw [show (0xF0 + a) % 8 * 262144 + (0x80 + b) % 64 * 4096 + (0x80 + c) % 64 * 64 + (0x80 + d) % 64 = a * 262144 + b * 4096 + c * 64 + d by omega]
  obtain ⟨n, en⟩ : ∃ n, n = a * 262144 + b * 4096 + c * 64 + d := ⟨_, rfl⟩
  rw [← en] at hn ⊢
  have e1 : (n + 2 ^ 32 - 0x10000) % 2 ^ 32 = n - 0x10000 := by omega
  have e2 : ((n - 0x10000) / 1024 + 0xD800) % 2 ^ 16 = 0xD800 + (n - 0x10000) / 1024 := by omega
  have e3 : ((n - 0x10000) % 1024 + 0xDC00) % 2 ^ 16 = 0xDC00 + (n - 0x10000) % 1024 := by omega
  rw [e1, e2, e3]

/-- arithmetic form of the UTF-8 encoder -/
def enc8 (n : Nat) : List Nat :=
  if n < 0x80 then [n]
  else if n < 0x800 then [0xC0 + n / 64, 0x80 + n % 64]
  else if n < 0x10000 then [0xE0 + n / 4096, 0x80 + n / 64 % 64, 0x80 + n % 64]
  else if n < 0x200000 then [0xF0 + n / 262144, 0x80 + n / 4096 % 64, 0x80 + n / 64 % 64, 0x80 + n % 64]
  else [0xF8 + n / 16777216, 0x80 + n / 262144 % 64, 0x80 + n / 4096 % 64, 0x80 + n / 64 % 64, 0x80 + n % 64]

theorem emit32LEto8_eq (n : Nat) (h : n < 0x4000000) : emit32LEto8 n = enc8 n := by
  unfold emit32LEto8 enc8
  simp only [shr0, shr6, shr12, shr18, shr24, and3, and7, andF, and1F, and3F]
  repeat' split
  · rw [show n % 2 ^ 8 = n by omega]
  · rw [orC0 _ (by omega), or80 _ (by omega), show n / 64 % 32 = n / 64 by omega]
  · rw [orE0 _ (by omega), or80 _ (by omega), or80 _ (by omega), show n / 4096 % 16 = n / 4096 by omega]
  · rw [orF0 _ (by omega), or80 _ (by omega), or80 _ (by omega), or80 _ (by omega), show n / 262144 % 8 = n / 262144 by omega]
  · rw [orF8 _ (by omega), or80 _ (by omega), or80 _ (by omega), or80 _ (by omega), or80 _ (by omega), show n / 16777216 % 4 = n / 16777216 by omega]

theorem enc8_spec (n : Nat) (h : n < 0x200000) : enc8 n = Spec.utf8 n := by
  unfold enc8 Spec.utf8
  repeat' split
  all_goals first | rfl | omega

theorem out8_cons {step tail ch rest o k} (h : step ch rest = some (o, k)) : out8 step tail (ch :: rest) = o ++ out8 step tail (rest.drop k) := by
  rw [out8, h]

theorem out8_32_enc (tail n : Nat) (h : n < 0x4000000) (rest : List Nat) : out8 step8to32LE tail (enc8 n ++ rest) = n :: out8 step8to32LE tail rest := by
  unfold enc8
  repeat' split
  · simp only [List.cons_append, List.nil_append]; rw [out8_cons (step32_1 n rest (by omega))]; rfl
  · simp only [List.cons_append, List.nil_append]
    rw [out8_cons (step32_2 _ _ rest (by omega) (by omega)), show n / 64 * 64 + n % 64 = n by omega]; rfl
  · simp only [List.cons_append, List.nil_append]
    rw [out8_cons (step32_3 _ _ _ rest (by omega) (by omega) (by omega)), show n / 4096 * 4096 + n / 64 % 64 * 64 + n % 64 = n by omega]; rfl
  · simp only [List.cons_append, List.nil_append]
    rw [out8_cons (step32_4 _ _ _ _ rest (by omega) (by omega) (by omega) (by omega)),
      show n / 262144 * 262144 + n / 4096 % 64 * 4096 + n / 64 % 64 * 64 + n % 64 = n by omega]; rfl
  · simp only [List.cons_append, List.nil_append]
    rw [out8_cons (step32_5 _ _ _ _ _ rest (by omega) (by omega) (by omega) (by omega) (by omega)),
      show n / 16777216 * 16777216 + n / 262144 % 64 * 262144 + n / 4096 % 64 * 4096 + n / 64 % 64 * 64 + n % 64 = n by omega]; rfl

/-- the big-endian copy on an encoded character -/
theorem out8_32BE_enc (tail n : Nat) (h : n < 0x4000000) (rest : List Nat) : out8 step8to32BE tail (enc8 n ++ rest) = swap32 n :: out8 step8to32BE tail rest := by
  have key : ∀ ch rest o k, ch < 0xFC → step8to32LE ch rest = some (o, k) → step8to32BE ch rest = some (o.map swap32, k) := by
    intro ch rest o k hc hs
    rcases step32BE_eq ch rest with e | ⟨-, -, e⟩
    · rw [e, hs]; rfl
    · omega
  unfold enc8
  repeat' split
  · simp only [List.cons_append, List.nil_append]; rw [out8_cons (key _ _ _ _ (by omega) (step32_1 n rest (by omega)))]; rfl
  · simp only [List.cons_append, List.nil_append]
    rw [out8_cons (key _ _ _ _ (by omega) (step32_2 _ _ rest (by omega) (by omega))), show n / 64 * 64 + n % 64 = n by omega]; rfl
  · simp only [List.cons_append, List.nil_append]
    rw [out8_cons (key _ _ _ _ (by omega) (step32_3 _ _ _ rest (by omega) (by omega) (by omega))), show n / 4096 * 4096 + n / 64 % 64 * 64 + n % 64 = n by omega]; rfl
  · simp only [List.cons_append, List.nil_append]
    rw [out8_cons (key _ _ _ _ (by omega) (step32_4 _ _ _ _ rest (by omega) (by omega) (by omega) (by omega))),
      show n / 262144 * 262144 + n / 4096 % 64 * 4096 + n / 64 % 64 * 64 + n % 64 = n by omega]; rfl
  · simp only [List.cons_append, List.nil_append]
    rw [out8_cons (key _ _ _ _ (by omega) (step32_5 _ _ _ _ _ rest (by omega) (by omega) (by omega) (by omega) (by omega))),
      show n / 16777216 * 16777216 + n / 262144 % 64 * 262144 + n / 4096 % 64 * 4096 + n / 64 % 64 * 64 + n % 64 = n by omega]; rfl

theorem out8_16_enc (tail n : Nat) (h : n < 0x110000) (rest : List Nat) : out8 step8to16LE tail (Spec.utf8 n ++ rest) = Spec.utf16 n ++ out8 step8to16LE tail rest := by
  unfold Spec.utf8
  repeat' split
  · simp only [List.cons_append, List.nil_append]; rw [out8_cons (step16_1 n rest (by omega))]
    rw [Spec.utf16, if_pos (by omega)]; rfl
  · simp only [List.cons_append, List.nil_append]
    rw [out8_cons (step16_2 _ _ rest (by omega) (by omega)), show n / 64 * 64 + n % 64 = n by omega]
    rw [Spec.utf16, if_pos (by omega)]; rfl
  · simp only [List.cons_append, List.nil_append]
    rw [out8_cons (step16_3 _ _ _ rest (by omega) (by omega) (by omega)), show n / 4096 * 4096 + n / 64 % 64 * 64 + n % 64 = n by omega]
    rw [Spec.utf16, if_pos (by omega)]; rfl
  · simp only [List.cons_append, List.nil_append]
    have e : n / 262144 * 262144 + n / 4096 % 64 * 4096 + n / 64 % 64 * 64 + n % 64 = n := by omega
    rw [out8_cons (step16_4 _ _ _ _ rest (by omega) (by omega) (by omega) (by omega) (by rw [e]; omega)), e]
    rw [Spec.utf16, if_neg (by omega)]; rfl

theorem out8_16BE (src : List Nat) (tail : Nat) : out8 step8to16BE (swap16 tail) src = (out8 step8to16LE tail src).map swap16 := by
  suffices h : ∀ n (src : List Nat), src.length ≤ n → out8 step8to16BE (swap16 tail) src = (out8 step8to16LE tail src).map swap16 from h _ src (Nat.le_refl _)
  intro n
  induction n with
  | zero =>
    intro src h
    have : src = [] := by cases src; rfl; simp at h
    subst this; simp [out8]
  | succ n ih =>
    intro src h
    cases src with
    | nil => simp [out8]
    | cons ch rest =>
      rw [out8, out8, step16BE_eq]
      cases hs : step8to16LE ch rest with
      | none => simp
      | some p =>
        simp only [Option.map_some, List.map_append]
        rw [ih _ (by simp at h ⊢; omega)]

end Verif.Utf
