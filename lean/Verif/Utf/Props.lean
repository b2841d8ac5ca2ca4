import Verif.Utf.Decode
/-! # C01–C07, C59: encoding conversions -/
namespace Verif.Utf
open Spec (Scalar utf8 utf16 utf8s utf16s rev16 rev32)

theorem Appends.ok {g d o r} (h : Appends g d o r) (ht : Total g) : ∃ c, r = .ok ⟨d.buf ++ o, c⟩ := by
  rcases h with ⟨c, h, -⟩ | ⟨h, -⟩
  · exact ⟨c, h⟩
  · exact (h ht).elim

/-- the growth policies of the code are good allocators (when they succeed) -/
theorem growth_good : Good (fun c n => some (growRealloc c n)) ∧ Good (fun _ n => some (growAlloc n)) := by
  constructor <;> intro c n c' h <;> cases h
  · unfold growRealloc; simp only []; split <;> omega
  · unfold growAlloc; omega

/-- non-vacuity: an allocator meeting both hypotheses exists, the one of the code -/
example : ∃ g, Good g ∧ Total g := ⟨_, growth_good.1, fun c n => ⟨_, rfl⟩⟩

/-! ## C01 -/
theorem out8_32_text (tail : Nat) (l : List Nat) (h : ∀ n ∈ l, Scalar n) : out8 step8to32LE tail (utf8s l) = l := by
  induction l with
  | nil => simp [utf8s, out8]
  | cons n l ih =>
    have hn := (h n (by simp)).1
    have := out8_32_enc tail n (by omega) (utf8s l)
    rw [enc8_spec n (by omega)] at this
    rw [show utf8s (n :: l) = utf8 n ++ utf8s l from rfl, this, ih (fun m hm => h m (by simp [hm]))]

theorem out8_32BE_text (tail : Nat) (l : List Nat) (h : ∀ n ∈ l, Scalar n) : out8 step8to32BE tail (utf8s l) = l.map rev32 := by
  induction l with
  | nil => simp [utf8s, out8]
  | cons n l ih =>
    have hn := (h n (by simp)).1
    have := out8_32BE_enc tail n (by omega) (utf8s l)
    rw [enc8_spec n (by omega)] at this
    rw [show utf8s (n :: l) = utf8 n ++ utf8s l from rfl, this, ih (fun m hm => h m (by simp [hm])), swap32_eq]; rfl

theorem out8_16_text (tail : Nat) (l : List Nat) (h : ∀ n ∈ l, Scalar n) : out8 step8to16LE tail (utf8s l) = utf16s l := by
  induction l with
  | nil => simp [utf8s, utf16s, out8]
  | cons n l ih =>
    rw [show utf8s (n :: l) = utf8 n ++ utf8s l from rfl, out8_16_enc tail n (h n (by simp)).1, ih (fun m hm => h m (by simp [hm]))]; rfl

theorem map_swap16 (l : List Nat) : l.map swap16 = l.map rev16 := List.map_congr_left fun x _ => swap16_eq x
theorem map_swap32 (l : List Nat) : l.map swap32 = l.map rev32 := List.map_congr_left fun x _ => swap32_eq x

/-- C01. For every sequence of Unicode scalar values and every previous content of the destination, converting its UTF-8 form appends exactly those scalar values in UTF-32,
their UTF-16 form in UTF-16, with the bytes of each unit reversed for the big-endian string types. -/
theorem C01_utf8_decode (g : Grow) (hg : Good g) (ht : Total g) (l : List Nat) (hl : ∀ n ∈ l, Scalar n) (d : Dst) (hd : d.buf.length ≤ d.cap) :
    (∃ c, u8to32LE g (utf8s l) d = .ok ⟨d.buf ++ l, c⟩) ∧
    (∃ c, u8to32BE g (utf8s l) d = .ok ⟨d.buf ++ l.map rev32, c⟩) ∧
    (∃ c, u8to16LE g (utf8s l) d = .ok ⟨d.buf ++ utf16s l, c⟩) ∧
    (∃ c, u8to16BE g (utf8s l) d = .ok ⟨d.buf ++ (utf16s l).map rev16, c⟩) := by
  refine ⟨?_, ?_, ?_, ?_⟩
  · have := (conv8_ok _ q bound8to32LE g hg (utf8s l) d hd).ok ht
    rwa [out8_32_text q l hl] at this
  · have := (conv8_ok _ q bound8to32BE g hg (utf8s l) d hd).ok ht
    rwa [out8_32BE_text q l hl] at this
  · have := (conv8_ok _ q bound8to16LE g hg (utf8s l) d hd).ok ht
    rwa [out8_16_text q l hl] at this
  · have := (conv8_ok _ (swap16 q) bound8to16BE g hg (utf8s l) d hd).ok ht
    rwa [out8_16BE, out8_16_text q l hl, map_swap16] at this

/-- non-vacuity: one character of each length -/
example : (∀ n ∈ [0x41, 0xE9, 0x4E2D, 0x1F600], Scalar n) ∧ utf8s [0x41, 0xE9, 0x4E2D, 0x1F600] = [0x41, 0xC3, 0xA9, 0xE4, 0xB8, 0xAD, 0xF0, 0x9F, 0x98, 0x80] ∧
    utf16s [0x41, 0xE9, 0x4E2D, 0x1F600] = [0x41, 0xE9, 0x4E2D, 0xD83D, 0xDE00] := by
  refine ⟨?_, by decide, by decide⟩
  intro n hn; simp at hn; unfold Scalar; omega

/-! ## C02 -/
theorem flatMap_congr {l : List Nat} {f g : Nat → List Nat} (h : ∀ n ∈ l, f n = g n) : l.flatMap f = l.flatMap g := by
  induction l with
  | nil => rfl
  | cons n l ih => rw [List.flatMap_cons, List.flatMap_cons, h n (by simp), ih (fun m hm => h m (by simp [hm]))]

theorem flat_32to8 (l : List Nat) (h : ∀ n ∈ l, n < 0x4000000) : l.flatMap emit32LEto8 = l.flatMap enc8 := by
  induction l with
  | nil => rfl
  | cons n l ih =>
    rw [List.flatMap_cons, List.flatMap_cons, emit32LEto8_eq n (h n (by simp)), ih (fun m hm => h m (by simp [hm]))]

theorem out8_32_flat (tail : Nat) (l : List Nat) (h : ∀ n ∈ l, n < 0x4000000) : out8 step8to32LE tail (l.flatMap enc8) = l := by
  induction l with
  | nil => simp [out8]
  | cons n l ih =>
    rw [List.flatMap_cons, out8_32_enc tail n (h n (by simp)), ih (fun m hm => h m (by simp [hm]))]

/-- C02 for strings of code points below 0x4000000 (every Unicode text): UTF-32 → UTF-8 → UTF-32 gives the same string, in both byte orders of the source,
and for scalar values the intermediate string is the UTF-8 form. (Missing: code points from 0x4000000 on, see `C02_fails`.) -/
theorem C02_round_trip_partial (g : Grow) (hg : Good g) (ht : Total g) (l : List Nat) (hl : ∀ n ∈ l, n < 0x4000000) (d e : Dst)
    (hd : d.buf = []) (he : e.buf.length ≤ e.cap) :
    ∃ m c, u32LEto8 g l d = .ok ⟨m, c⟩ ∧ (∃ c', u32BEto8 g (l.map rev32) d = .ok ⟨m, c'⟩) ∧ (∃ c', u8to32LE g m e = .ok ⟨e.buf ++ l, c'⟩) ∧
      ((∀ n ∈ l, Scalar n) → m = utf8s l) := by
  have hd' : d.buf.length ≤ d.cap := by rw [hd]; simp
  refine ⟨l.flatMap enc8, ?_⟩
  have h1 := (convG_ok (noLast emit32LEto8) 6 3 true bound32LEto8 g hg l d hd').1.ok ht
  rw [out16_noLast, flat_32to8 l hl, hd] at h1
  obtain ⟨c, h1⟩ := h1
  refine ⟨c, h1, ?_, ?_, ?_⟩
  · have h2 := (convG_ok (noLast emit32BEto8) 6 3 true bound32BEto8 g hg (l.map rev32) d hd').1.ok ht
    have e2 : (l.map rev32).flatMap emit32BEto8 = l.flatMap enc8 := by
      rw [← flat_32to8 l hl, List.flatMap_map]
      refine flatMap_congr fun n hn => ?_
      have := hl n hn
      rw [emit32BEto8_eq, swap32_eq, rev32_rev32 n (by omega)]
    rw [out16_noLast, e2, hd] at h2
    exact h2
  · have h3 := (conv8_ok _ q bound8to32LE g hg (l.flatMap enc8) e he).ok ht
    rwa [out8_32_flat q l hl] at h3
  · intro hs
    unfold utf8s
    refine flatMap_congr fun n hn => ?_
    have := (hs n hn).1
    exact enc8_spec n (by omega)

theorem cont_F0 (x : Nat) (h : x < 64) : cont (x ||| 0xF0) = false := by
  have : ∀ x < 64, cont (x ||| 0xF0) = false := by decide +kernel
  exact this x h

/-- C02 does not hold for the library's six byte form: no code point in 0x4000000 … 0x7FFFFFFF comes back. -/
theorem C02_fails (g : Grow) (hg : Good g) (ht : Total g) (n : Nat) (h1 : 0x4000000 ≤ n) (h2 : n < 0x80000000) (d e : Dst) (hd : d.buf = []) (he : e.buf.length ≤ e.cap) :
    ∃ m c, u32LEto8 g [n] d = .ok ⟨m, c⟩ ∧ ∀ c', u8to32LE g m e ≠ .ok ⟨e.buf ++ [n], c'⟩ := by
  have hd' : d.buf.length ≤ d.cap := by rw [hd]; simp
  obtain ⟨c, h3⟩ := (convG_ok (noLast emit32LEto8) 6 3 true bound32LEto8 g hg [n] d hd').1.ok ht
  rw [out16_noLast, hd, List.flatMap_singleton] at h3
  refine ⟨emit32LEto8 n, c, h3, ?_⟩
  intro c' h4
  obtain ⟨c'', h5⟩ := (conv8_ok _ q bound8to32LE g hg (emit32LEto8 n) e he).ok ht
  rw [show u8to32LE g = conv8 step8to32LE q g from rfl, h5] at h4
  have h6 : out8 step8to32LE q (emit32LEto8 n) = [n] := by
    injection h4 with h4; injection h4 with h4 _; exact List.append_cancel_left h4
  revert h6
  unfold emit32LEto8
  repeat rw [if_neg (by omega)]
  rw [if_pos (by omega), and1, orFC _ (by omega)]
  simp only [shr30]
  rw [out8_cons (o := [q]) (k := 0)]
  · intro h; simp only [List.cons_append, List.nil_append, List.cons.injEq] at h
    have := h.1; unfold q at this; omega
  · unfold step8to32LE
    rw [if_neg (by omega), if_pos (by omega)]
    simp only [cont_F0 (n >>> 24 &&& 0x3F) (by rw [and3F]; omega), Bool.false_and, Bool.false_eq_true, if_false]

/-! ## C03 -/

/-- the pending unit does not survive an ordinary unit or a pair -/
theorem out16_32_utf16 (tail n : Nat) (h : Scalar n) (hE : n ≠ 0xE000) (rest : List Nat) :
    out16 step16LEto32LE tail 0 (utf16 n ++ rest) = n :: out16 step16LEto32LE tail 0 rest := by
  obtain ⟨h1, h2⟩ := h
  unfold utf16
  split
  · simp only [List.cons_append, List.nil_append, out16]
    have : step16LEto32LE 0 n = ([n], 0) := by
      unfold step16LEto32LE; rw [if_neg (by omega)]; simp only [ne_eq, not_true_eq_false, if_false]; rw [if_neg (by omega)]; rfl
    rw [this]; rfl
  · simp only [List.cons_append, List.nil_append, out16]
    have e1 : step16LEto32LE 0 (0xD800 + (n - 0x10000) / 1024) = ([], 0xD800 + (n - 0x10000) / 1024) := by
      unfold step16LEto32LE; rw [if_neg (by omega)]; simp only [ne_eq, not_true_eq_false, if_false]; rw [if_pos (by omega)]
    have e2 : step16LEto32LE (0xD800 + (n - 0x10000) / 1024) (0xDC00 + (n - 0x10000) % 1024) = ([n], 0) := by
      unfold step16LEto32LE
      rw [if_pos (by omega), pair_eq _ _ (by omega)]
      have : ((0xD800 + (n - 0x10000) / 1024 - 0xD800) * 1024 + (0xDC00 + (n - 0x10000) % 1024 - 0xDC00) + 0x10000) % 2 ^ 32 = n := by omega
      rw [this]
    rw [e1]; simp only []; rw [e2]; rfl

theorem out16_8_utf16 (tail n : Nat) (h : Scalar n) (hE : n ≠ 0xE000) (rest : List Nat) :
    out16 step16LEto8 tail 0 (utf16 n ++ rest) = utf8 n ++ out16 step16LEto8 tail 0 rest := by
  obtain ⟨h1, h2⟩ := h
  unfold utf16
  split
  · simp only [List.cons_append, List.nil_append, out16]
    have : step16LEto8 0 n = (utf8 n, 0) := by
      unfold step16LEto8 utf8; rw [if_neg (by omega)]
      simp only [ne_eq, not_true_eq_false, if_false, List.nil_append, shr0, shr6, shr12, and3F, and1F, andF]
      split
      · rw [show n % 2 ^ 8 = n by omega]
      · split
        · rw [orC0 _ (by omega), or80 _ (by omega), show n / 64 % 32 = n / 64 by omega]
        · rw [if_pos (by omega), orE0 _ (by omega), or80 _ (by omega), or80 _ (by omega), show n / 4096 % 16 = n / 4096 by omega]
    rw [this]
  · simp only [List.cons_append, List.nil_append, out16]
    have e1 : step16LEto8 0 (0xD800 + (n - 0x10000) / 1024) = ([], 0xD800 + (n - 0x10000) / 1024) := by
      unfold step16LEto8; rw [if_neg (by omega)]
      simp only [ne_eq, not_true_eq_false, if_false]
      rw [if_neg (by omega), if_neg (by omega), if_neg (by omega)]
    have e2 : step16LEto8 (0xD800 + (n - 0x10000) / 1024) (0xDC00 + (n - 0x10000) % 1024) = (utf8 n, 0) := by
      unfold step16LEto8 utf8
      rw [if_pos (by omega), pair_eq _ _ (by omega)]
      have : ((0xD800 + (n - 0x10000) / 1024 - 0xD800) * 1024 + (0xDC00 + (n - 0x10000) % 1024 - 0xDC00) + 0x10000) % 2 ^ 32 = n := by omega
      simp only [this, shr0, shr6, shr12, shr18, and3F, and7]
      rw [if_neg (by omega), if_neg (by omega), if_neg (by omega), orF0 _ (by omega), or80 _ (by omega), or80 _ (by omega), or80 _ (by omega),
        show n / 262144 % 8 = n / 262144 by omega]
    rw [e1]; simp only []; rw [e2]; rfl

theorem out16_32_text (tail : Nat) (l : List Nat) (h : ∀ n ∈ l, Scalar n ∧ n ≠ 0xE000) : out16 step16LEto32LE tail 0 (utf16s l) = l := by
  induction l with
  | nil => simp [utf16s, out16]
  | cons n l ih =>
    obtain ⟨h1, h2⟩ := h n (by simp)
    rw [show utf16s (n :: l) = utf16 n ++ utf16s l from rfl, out16_32_utf16 tail n h1 h2, ih (fun m hm => h m (by simp [hm]))]

theorem out16_8_text (tail : Nat) (l : List Nat) (h : ∀ n ∈ l, Scalar n ∧ n ≠ 0xE000) : out16 step16LEto8 tail 0 (utf16s l) = utf8s l := by
  induction l with
  | nil => simp [utf16s, utf8s, out16]
  | cons n l ih =>
    obtain ⟨h1, h2⟩ := h n (by simp)
    rw [show utf16s (n :: l) = utf16 n ++ utf16s l from rfl, out16_8_utf16 tail n h1 h2, ih (fun m hm => h m (by simp [hm]))]; rfl

/-! reading a big-endian source is reading the swapped little-endian source -/
theorem out16_BE8 (tail last : Nat) (src : List Nat) (h : ∀ x ∈ src, x < 65536) : out16 step16BEto8 tail last (src.map rev16) = out16 step16LEto8 tail last src := by
  induction src generalizing last with
  | nil => rfl
  | cons x l ih =>
    rw [List.map_cons, out16, out16, step16BEto8_eq, swap16_eq, rev16_rev16 x (h x (by simp)), ih _ (fun y hy => h y (by simp [hy]))]

theorem out16_BE32LE (tail last : Nat) (src : List Nat) (h : ∀ x ∈ src, x < 65536) : out16 step16BEto32LE tail last (src.map rev16) = out16 step16LEto32LE tail last src := by
  induction src generalizing last with
  | nil => rfl
  | cons x l ih =>
    rw [List.map_cons, out16, out16, step16BEto32LE_eq, swap16_eq, rev16_rev16 x (h x (by simp)), ih _ (fun y hy => h y (by simp [hy]))]

theorem out16_BE32BE (tail last : Nat) (src : List Nat) (h : ∀ x ∈ src, x < 65536) :
    out16 step16BEto32BE (swap32 tail) last (src.map rev16) = (out16 step16LEto32LE tail last src).map rev32 := by
  induction src generalizing last with
  | nil => unfold out16; simp only [List.map_nil]; split <;> simp [swap32_eq]
  | cons x l ih =>
    rw [List.map_cons, out16, out16, step16BEto32BE_eq, swap16_eq, rev16_rev16 x (h x (by simp))]
    simp only [List.map_append]
    rw [ih _ (fun y hy => h y (by simp [hy])), map_swap32]

theorem utf16_lt (l : List Nat) (h : ∀ n ∈ l, Scalar n) : ∀ x ∈ utf16s l, x < 65536 := by
  intro x hx
  unfold utf16s at hx
  obtain ⟨n, hn, hx⟩ := List.mem_flatMap.1 hx
  have := (h n hn).1
  unfold utf16 at hx
  split at hx <;> simp at hx <;> omega

theorem conv16LE_to_32BE (g : Grow) (hg : Good g) (ht : Total g) (src : List Nat) (d : Dst) (hd : d.buf.length ≤ d.cap) :
    ∃ c, u16LEto32BE g src d = .ok ⟨d.buf ++ (out16 step16LEto32LE q 0 src).map rev32, c⟩ := by
  unfold u16LEto32BE
  by_cases h0 : src = []
  · subst h0; exact ⟨d.cap, by simp [out16]⟩
  · obtain ⟨c, h1⟩ := (conv16_ok _ q bound16LEto32LE g hg src ⟨[], 0⟩ (by simp)).ok ht
    rw [if_neg h0, show u16LEto32LE g = conv16 step16LEto32LE q g from rfl, h1]
    simp only [List.nil_append]
    have := (endian_ok swap32 g hg (out16 step16LEto32LE q 0 src) d hd).ok ht
    rwa [map_swap32] at this

/-- C03 for texts without U+E000: UTF-16 (either byte order) to UTF-8 and UTF-32 (either byte order). (Missing: U+E000, see `C03_fails`.) -/
theorem C03_utf16_decode_partial (g : Grow) (hg : Good g) (ht : Total g) (l : List Nat) (hl : ∀ n ∈ l, Scalar n ∧ n ≠ 0xE000) (d : Dst) (hd : d.buf.length ≤ d.cap) :
    (∃ c, u16LEto8 g (utf16s l) d = .ok ⟨d.buf ++ utf8s l, c⟩) ∧
    (∃ c, u16BEto8 g ((utf16s l).map rev16) d = .ok ⟨d.buf ++ utf8s l, c⟩) ∧
    (∃ c, u16LEto32LE g (utf16s l) d = .ok ⟨d.buf ++ l, c⟩) ∧
    (∃ c, u16LEto32BE g (utf16s l) d = .ok ⟨d.buf ++ l.map rev32, c⟩) ∧
    (∃ c, u16BEto32LE g ((utf16s l).map rev16) d = .ok ⟨d.buf ++ l, c⟩) ∧
    (∃ c, u16BEto32BE g ((utf16s l).map rev16) d = .ok ⟨d.buf ++ l.map rev32, c⟩) := by
  have hlt := utf16_lt l (fun n hn => (hl n hn).1)
  refine ⟨?_, ?_, ?_, ?_, ?_, ?_⟩
  · have := (convG_ok _ 4 3 false bound16LEto8 g hg (utf16s l) d hd).1.ok ht
    rwa [out16_8_text q l hl] at this
  · have := (convG_ok _ 4 3 true bound16BEto8 g hg ((utf16s l).map rev16) d hd).1.ok ht
    rwa [out16_BE8 q 0 _ hlt, out16_8_text q l hl] at this
  · have := (conv16_ok _ q bound16LEto32LE g hg (utf16s l) d hd).ok ht
    rwa [out16_32_text q l hl] at this
  · have := conv16LE_to_32BE g hg ht (utf16s l) d hd
    rwa [out16_32_text q l hl] at this
  · have := (conv16_ok _ q bound16BEto32LE g hg ((utf16s l).map rev16) d hd).ok ht
    rwa [out16_BE32LE q 0 _ hlt, out16_32_text q l hl] at this
  · have := (conv16_ok _ (swap32 q) bound16BEto32BE g hg ((utf16s l).map rev16) d hd).ok ht
    rwa [out16_BE32BE q 0 _ hlt, out16_32_text q l hl] at this

/-- non-vacuity -/
example : ∀ n ∈ [0x41, 0xE9, 0xE001, 0x1F600], Scalar n ∧ n ≠ 0xE000 := by
  intro n hn; simp at hn; unfold Scalar; omega

/-- a concrete allocator for the witnesses: the one of the code -/
def codeGrow : Grow := fun c n => some (growRealloc c n)

/-- C03 does not hold: the text U+E000 becomes '?' in UTF-8 and in UTF-32. -/
theorem C03_fails : Scalar 0xE000 ∧ utf16s [0xE000] = [0xE000] ∧ u16LEto8 codeGrow (utf16s [0xE000]) ⟨[], 0⟩ = .ok ⟨[0x3F], 15⟩ ∧
    u16LEto32LE codeGrow (utf16s [0xE000]) ⟨[], 0⟩ = .ok ⟨[0x3F], 15⟩ := by
  refine ⟨by unfold Scalar; omega, by decide, by decide, by decide⟩

/-! ## C04 -/
theorem emit32LEto16BE_eq (n : Nat) (h : n < 0x110000) : emit32LEto16BE n = (utf16 n).map rev16 := by
  unfold emit32LEto16BE utf16
  split
  · rw [swap16_eq, show n % 2 ^ 16 = n by omega]; rfl
  · simp only [shr10, and3FF, swap16_eq, h, if_true]
    rw [show ((n - 0x10000) / 1024 + 0xD800) % 2 ^ 16 = 0xD800 + (n - 0x10000) / 1024 by omega, show ((n - 0x10000) % 1024 + 0xDC00) % 2 ^ 16 = 0xDC00 + (n - 0x10000) % 1024 by omega]
    rfl

/-- what the big-endian source versions do with the code point -/
theorem emit32BEto16LE_eq (n : Nat) (h : n < 4294967296) : emit32BEto16LE (rev32 n) = if n < 0x110000 then utf16 n else [q] := by
  unfold emit32BEto16LE utf16
  rw [swap32_eq, rev32_rev32 n h]
  simp only [shr10, and3FF]
  split
  · rw [show n % 2 ^ 16 = n by omega, if_pos (by omega)]
  · split
    · rw [show ((n - 0x10000) / 1024 + 0xD800) % 2 ^ 16 = 0xD800 + (n - 0x10000) / 1024 by omega, show ((n - 0x10000) % 1024 + 0xDC00) % 2 ^ 16 = 0xDC00 + (n - 0x10000) % 1024 by omega]
    · rfl

theorem emit32BEto16BE_eq (n : Nat) : emit32BEto16BE n = (emit32BEto16LE n).map rev16 := by
  unfold emit32BEto16BE emit32BEto16LE
  simp only [swap16_eq]
  generalize swap32 n = m
  repeat' split
  all_goals rfl

theorem C04_aux (g : Grow) (hg : Good g) (ht : Total g) (emit : Nat → List Nat) (hb : ∀ last ch, (noLast emit last ch).1.length + debt (noLast emit last ch).2 ≤ 2)
    (src : List Nat) (d : Dst) (hd : d.buf.length ≤ d.cap) :
    ∃ c, convG (noLast emit) 2 1 true g src d = .ok ⟨d.buf ++ src.flatMap emit, c⟩ := by
  have := (convG_ok (noLast emit) 2 1 true hb g hg src d hd).1.ok ht
  rwa [out16_noLast] at this

theorem map_flatMap (l : List Nat) (f : Nat → List Nat) (g : Nat → Nat) : (l.flatMap f).map g = l.flatMap fun x => (f x).map g := by
  induction l with
  | nil => rfl
  | cons n l ih => rw [List.flatMap_cons, List.flatMap_cons, List.map_append, ih]

/-- C04 for three of the four pairs of byte orders, for every text; for little-endian to little-endian only texts of the basic multilingual plane.
(Missing: supplementary characters little-endian to little-endian, see `C04_fails`.) -/
theorem C04_utf32_to_utf16_partial (g : Grow) (hg : Good g) (ht : Total g) (l : List Nat) (hl : ∀ n ∈ l, Scalar n) (d : Dst) (hd : d.buf.length ≤ d.cap) :
    (∃ c, u32LEto16BE g l d = .ok ⟨d.buf ++ (utf16s l).map rev16, c⟩) ∧
    (∃ c, u32BEto16LE g (l.map rev32) d = .ok ⟨d.buf ++ utf16s l, c⟩) ∧
    (∃ c, u32BEto16BE g (l.map rev32) d = .ok ⟨d.buf ++ (utf16s l).map rev16, c⟩) ∧
    ((∀ n ∈ l, n < 0x10000) → ∃ c, u32LEto16LE g l d = .ok ⟨d.buf ++ utf16s l, c⟩) := by
  have h3 : (l.map rev32).flatMap emit32BEto16LE = utf16s l := by
    rw [List.flatMap_map]
    refine flatMap_congr fun n hn => ?_
    have := (hl n hn).1
    rw [emit32BEto16LE_eq n (by omega), if_pos this]
  refine ⟨?_, ?_, ?_, ?_⟩
  · have := C04_aux g hg ht _ bound32LEto16BE l d hd
    rwa [flatMap_congr (fun n hn => emit32LEto16BE_eq n (hl n hn).1), ← map_flatMap] at this
  · have := C04_aux g hg ht _ bound32BEto16LE (l.map rev32) d hd
    rwa [h3] at this
  · have := C04_aux g hg ht _ bound32BEto16BE (l.map rev32) d hd
    rwa [flatMap_congr (fun n _ => emit32BEto16BE_eq n), ← map_flatMap, h3] at this
  · intro hb
    have := C04_aux g hg ht _ bound32LEto16LE l d hd
    rwa [flatMap_congr (g := utf16) (fun n hn => ?_)] at this
    have h1 := hb n hn
    unfold emit32LEto16LE utf16
    rw [if_pos h1, if_pos h1, show n % 2 ^ 16 = n by omega]

/-- C04 does not hold little-endian to little-endian: *every* supplementary character is converted to something else (both surrogates are cut to 8 bits). -/
theorem C04_fails (g : Grow) (hg : Good g) (ht : Total g) (n : Nat) (h1 : 0x10000 ≤ n) (h2 : n < 0x110000) (d : Dst) (hd : d.buf.length ≤ d.cap) :
    ∃ o c, u32LEto16LE g [n] d = .ok ⟨d.buf ++ o, c⟩ ∧ o ≠ utf16s [n] ∧ ∀ x ∈ o, x < 256 := by
  obtain ⟨c, h⟩ := C04_aux g hg ht _ bound32LEto16LE [n] d hd
  rw [List.flatMap_singleton] at h
  have e : emit32LEto16LE n = [((n - 0x10000) / 1024 + 0xD800) % 256, ((n - 0x10000) % 1024 + 0xDC00) % 256] := by
    unfold emit32LEto16LE
    rw [if_neg (by omega), if_pos h2]
    simp only [shr10, and3FF]
  refine ⟨_, c, h, ?_, ?_⟩
  · rw [e, utf16s, List.flatMap_singleton, utf16, if_neg (by omega)]
    intro hh
    simp only [List.cons.injEq] at hh
    have := hh.1; omega
  · rw [e]
    intro x hx; simp only [List.mem_cons, List.not_mem_nil, or_false] at hx
    rcases hx with rfl | rfl <;> omega

/-! ## C05 -/

/-- C05 where it holds, for every input, well-formed or not: UTF-8 to UTF-16; UTF-16 to UTF-8 and UTF-32 for every combination; UTF-32 to UTF-8; big-endian UTF-32 to UTF-16.
UTF-8 to UTF-32: the units agree except that a '?' may be left unswapped. (Missing: see `C05_fails`.) -/
theorem C05_endian_partial (g : Grow) (hg : Good g) (ht : Total g) (src : List Nat) (d : Dst) (hd : d.buf.length ≤ d.cap) :
    (∃ o c c', u8to16LE g src d = .ok ⟨d.buf ++ o, c⟩ ∧ u8to16BE g src d = .ok ⟨d.buf ++ o.map rev16, c'⟩) ∧
    ((∀ x ∈ src, x < 2 ^ 16) → ∃ o c c', u16LEto8 g src d = .ok ⟨d.buf ++ o, c⟩ ∧ u16BEto8 g (src.map rev16) d = .ok ⟨d.buf ++ o, c'⟩) ∧
    ((∀ x ∈ src, x < 2 ^ 16) → ∃ o, (∃ c, u16LEto32LE g src d = .ok ⟨d.buf ++ o, c⟩) ∧ (∃ c, u16LEto32BE g src d = .ok ⟨d.buf ++ o.map rev32, c⟩) ∧
      (∃ c, u16BEto32LE g (src.map rev16) d = .ok ⟨d.buf ++ o, c⟩) ∧ (∃ c, u16BEto32BE g (src.map rev16) d = .ok ⟨d.buf ++ o.map rev32, c⟩)) ∧
    ((∀ x ∈ src, x < 2 ^ 32) → ∃ o c c', u32LEto8 g src d = .ok ⟨d.buf ++ o, c⟩ ∧ u32BEto8 g (src.map rev32) d = .ok ⟨d.buf ++ o, c'⟩) ∧
    (∃ o c c', u32BEto16LE g src d = .ok ⟨d.buf ++ o, c⟩ ∧ u32BEto16BE g src d = .ok ⟨d.buf ++ o.map rev16, c'⟩) ∧
    (∃ o o' c c', u8to32LE g src d = .ok ⟨d.buf ++ o, c⟩ ∧ u8to32BE g src d = .ok ⟨d.buf ++ o', c'⟩ ∧
      o.length = o'.length ∧ ∀ p ∈ o.zip o', p.2 = rev32 p.1 ∨ (p.1 = 0x3F ∧ p.2 = 0x3F)) := by
  refine ⟨?_, ?_, ?_, ?_, ?_, ?_⟩
  · obtain ⟨c, h⟩ := (conv8_ok _ q bound8to16LE g hg src d hd).ok ht
    obtain ⟨c', h'⟩ := (conv8_ok _ (swap16 q) bound8to16BE g hg src d hd).ok ht
    rw [out8_16BE, map_swap16] at h'
    exact ⟨_, c, c', h, h'⟩
  · intro hs
    obtain ⟨c, h⟩ := (convG_ok _ 4 3 false bound16LEto8 g hg src d hd).1.ok ht
    obtain ⟨c', h'⟩ := (convG_ok _ 4 3 true bound16BEto8 g hg (src.map rev16) d hd).1.ok ht
    rw [out16_BE8 q 0 src hs] at h'
    exact ⟨_, c, c', h, h'⟩
  · intro hs
    refine ⟨out16 step16LEto32LE q 0 src, (conv16_ok _ q bound16LEto32LE g hg src d hd).ok ht, conv16LE_to_32BE g hg ht src d hd, ?_, ?_⟩
    · have := (conv16_ok _ q bound16BEto32LE g hg (src.map rev16) d hd).ok ht
      rwa [out16_BE32LE q 0 src hs] at this
    · have := (conv16_ok _ (swap32 q) bound16BEto32BE g hg (src.map rev16) d hd).ok ht
      rwa [out16_BE32BE q 0 src hs] at this
  · intro hs
    obtain ⟨c, h⟩ := (convG_ok (noLast emit32LEto8) 6 3 true bound32LEto8 g hg src d hd).1.ok ht
    obtain ⟨c', h'⟩ := (convG_ok (noLast emit32BEto8) 6 3 true bound32BEto8 g hg (src.map rev32) d hd).1.ok ht
    rw [out16_noLast] at h h'
    have e2 : (src.map rev32).flatMap emit32BEto8 = src.flatMap emit32LEto8 := by
      rw [List.flatMap_map]
      refine flatMap_congr fun n hn => ?_
      rw [emit32BEto8_eq, swap32_eq, rev32_rev32 n (hs n hn)]
    rw [e2] at h'
    exact ⟨_, c, c', h, h'⟩
  · obtain ⟨c, h⟩ := C04_aux g hg ht _ bound32BEto16LE src d hd
    obtain ⟨c', h'⟩ := C04_aux g hg ht _ bound32BEto16BE src d hd
    rw [flatMap_congr (fun n _ => emit32BEto16BE_eq n), ← map_flatMap] at h'
    exact ⟨_, c, c', h, h'⟩
  · obtain ⟨c, h⟩ := (conv8_ok _ q bound8to32LE g hg src d hd).ok ht
    obtain ⟨c', h'⟩ := (conv8_ok _ q bound8to32BE g hg src d hd).ok ht
    refine ⟨_, _, c, c', h, h', ?_⟩
    have key : ∀ n (src : List Nat), src.length ≤ n → (out8 step8to32LE q src).length = (out8 step8to32BE q src).length ∧
        ∀ p ∈ (out8 step8to32LE q src).zip (out8 step8to32BE q src), p.2 = rev32 p.1 ∨ (p.1 = 0x3F ∧ p.2 = 0x3F) := by
      intro n
      induction n with
      | zero =>
        intro src h
        have : src = [] := by cases src; rfl; simp at h
        subst this; simp [out8]
      | succ n ih =>
        intro src h
        cases src with
        | nil => simp [out8]
        | cons ch rest =>
          rw [out8, out8]
          rcases step32BE_eq ch rest with e | ⟨e, e', -⟩
          · rw [e]
            cases step8to32LE ch rest with
            | none => simp [q]
            | some p =>
              simp only [Option.map_some, map_swap32]
              have ih' := ih (rest.drop p.2) (by simp at h ⊢; omega)
              induction p.1 with
              | nil => simpa using ih'
              | cons x l ih2 =>
                obtain ⟨i1, i2⟩ := ih2
                refine ⟨by simpa using i1, ?_⟩
                intro p hp
                simp only [List.cons_append, List.map_cons, List.zip_cons_cons, List.mem_cons] at hp
                rcases hp with rfl | hp
                · left; rfl
                · exact i2 p hp
          · rw [e, e']
            obtain ⟨i1, i2⟩ := ih rest (by simp at h; omega)
            simp only [List.drop_zero, List.cons_append, List.nil_append, List.zip_cons_cons, List.length_cons, List.mem_cons]
            refine ⟨by omega, ?_⟩
            intro p hp
            rcases hp with rfl | hp
            · right; exact ⟨rfl, rfl⟩
            · exact i2 p hp
    exact key _ src (Nat.le_refl _)

/-- C05 does not hold: (1) a truncated UTF-8 tail gives an unswapped '?' in big-endian UTF-32; (2) so does a broken six byte form; (3) a code point above 0x10FFFF gives an unswapped
'?' going from little-endian UTF-32 to big-endian UTF-16; (4) U+1F600 gives different UTF-16 for the two byte orders of the destination. -/
theorem C05_fails :
    (u8to32LE codeGrow [0xE4] ⟨[], 0⟩ = .ok ⟨[0x3F], 15⟩ ∧ u8to32BE codeGrow [0xE4] ⟨[], 0⟩ = .ok ⟨[0x3F], 15⟩ ∧ rev32 0x3F ≠ 0x3F) ∧
    (u8to32LE codeGrow [0xFC, 1, 1, 1, 1, 1] ⟨[], 0⟩ = .ok ⟨[0x3F, 1, 1, 1, 1, 1], 15⟩ ∧
      u8to32BE codeGrow [0xFC, 1, 1, 1, 1, 1] ⟨[], 0⟩ = .ok ⟨0x3F :: [1, 1, 1, 1, 1].map rev32, 15⟩) ∧
    (u32LEto16LE codeGrow [0x110000] ⟨[], 0⟩ = .ok ⟨[0x3F], 15⟩ ∧ u32LEto16BE codeGrow [0x110000] ⟨[], 0⟩ = .ok ⟨[0x3F], 15⟩ ∧ rev16 0x3F ≠ 0x3F) ∧
    (u32LEto16LE codeGrow [0x1F600] ⟨[], 0⟩ = .ok ⟨[0x3D, 0x00], 15⟩ ∧ u32LEto16BE codeGrow [0x1F600] ⟨[], 0⟩ = .ok ⟨[0xD83D, 0xDE00].map rev16, 15⟩) := by
  refine ⟨⟨?_, ?_, by decide⟩, ⟨?_, ?_⟩, ⟨by decide, by decide, by decide⟩, ⟨by decide, by decide⟩⟩
  all_goals (first | unfold u8to32LE | unfold u8to32BE) <;> (unfold conv8; simp [loop8, lock, codeGrow, growRealloc, puts, put, step8to32LE, step8to32BE, cont, q]; try decide)

/-! ## C06 -/

/-- every conversion of the model -/
def allConversions : List (Grow → List Nat → Dst → Res) :=
  [u8to16LE, u8to16BE, u8to32LE, u8to32BE, u16LEto8, u16BEto8, u16LEto32LE, u16LEto32BE, u16BEto32LE, u16BEto32BE,
   u32LEto8, u32BEto8, u32LEto16LE, u32LEto16BE, u32BEto16LE, u32BEto16BE, endian swap16, endian swap32]

theorem Appends.safe {g d o r} (h : Appends g d o r) : r ≠ .ub ∧ (∀ d', r = .ok d' ∨ r = .oom d' → d'.buf.length ≤ d'.cap) ∧ (∀ d', r = .ok d' → d.buf <+: d'.buf) := by
  rcases h with ⟨c, h, hl⟩ | ⟨-, d', h, hl⟩
  · subst h
    refine ⟨by simp, ?_, ?_⟩
    · intro d' h; rcases h with h | h <;> cases h; exact hl
    · intro d' h; cases h; exact List.prefix_append _ _
  · subst h
    refine ⟨by simp, ?_, by simp⟩
    intro d'' h; rcases h with h | h <;> cases h; exact hl

theorem u16LEto32BE_app (g : Grow) (hg : Good g) (src : List Nat) (d : Dst) (hd : d.buf.length ≤ d.cap) :
    Appends g d ((out16 step16LEto32LE q 0 src).map swap32) (u16LEto32BE g src d) ∧ (∀ d', u16LEto32BE g src d = .oom d' → d' = d) := by
  unfold u16LEto32BE
  by_cases h0 : src = []
  · subst h0; exact ⟨.inl ⟨d.cap, by simp [out16], by simpa [out16] using hd⟩, by simp⟩
  · rw [if_neg h0]
    rcases conv16_ok _ q bound16LEto32LE g hg src ⟨[], 0⟩ (by simp) with ⟨c, h1, -⟩ | ⟨ht, d', h1, -⟩
    · rw [show u16LEto32LE g = conv16 step16LEto32LE q g from rfl, h1]
      simp only [List.nil_append]
      refine ⟨endian_ok swap32 g hg _ d hd, ?_⟩
      intro d' h
      unfold endian at h
      repeat' split at h
      all_goals first | (cases h; done) | (cases h; rfl)
    · rw [show u16LEto32LE g = conv16 step16LEto32LE q g from rfl, h1]
      exact ⟨.inr ⟨ht, d, rfl, hd⟩, by intro d' h; cases h; rfl⟩

/-- C06. For every allocator behaviour (failing or not), every source and every destination, no conversion writes outside the buffer it has locked; the resulting size is within the
capacity, and a successful conversion keeps the previous contents as a prefix. -/
theorem C06_no_overflow (g : Grow) (hg : Good g) (src : List Nat) (d : Dst) (hd : d.buf.length ≤ d.cap) (conv) (hc : conv ∈ allConversions) :
    conv g src d ≠ .ub ∧ (∀ d', conv g src d = .ok d' ∨ conv g src d = .oom d' → d'.buf.length ≤ d'.cap) ∧ (∀ d', conv g src d = .ok d' → d.buf <+: d'.buf) := by
  unfold allConversions at hc
  simp only [List.mem_cons, List.not_mem_nil, or_false] at hc
  rcases hc with rfl | rfl | rfl | rfl | rfl | rfl | rfl | rfl | rfl | rfl | rfl | rfl | rfl | rfl | rfl | rfl | rfl | rfl
  · exact (conv8_ok _ _ bound8to16LE g hg src d hd).safe
  · exact (conv8_ok _ _ bound8to16BE g hg src d hd).safe
  · exact (conv8_ok _ _ bound8to32LE g hg src d hd).safe
  · exact (conv8_ok _ _ bound8to32BE g hg src d hd).safe
  · exact (convG_ok _ 4 3 false bound16LEto8 g hg src d hd).1.safe
  · exact (convG_ok _ 4 3 true bound16BEto8 g hg src d hd).1.safe
  · exact (conv16_ok _ _ bound16LEto32LE g hg src d hd).safe
  · exact (u16LEto32BE_app g hg src d hd).1.safe
  · exact (conv16_ok _ _ bound16BEto32LE g hg src d hd).safe
  · exact (conv16_ok _ _ bound16BEto32BE g hg src d hd).safe
  · exact (convG_ok _ 6 3 true bound32LEto8 g hg src d hd).1.safe
  · exact (convG_ok _ 6 3 true bound32BEto8 g hg src d hd).1.safe
  · exact (convG_ok _ 2 1 true bound32LEto16LE g hg src d hd).1.safe
  · exact (convG_ok _ 2 1 true bound32LEto16BE g hg src d hd).1.safe
  · exact (convG_ok _ 2 1 true bound32BEto16LE g hg src d hd).1.safe
  · exact (convG_ok _ 2 1 true bound32BEto16BE g hg src d hd).1.safe
  · exact (endian_ok _ g hg src d hd).safe
  · exact (endian_ok _ g hg src d hd).safe

/-! ## C59 -/
theorem conv8_oom (step) (tail : Nat) (g : Grow) (src : List Nat) (d d' : Dst) (h : conv8 step tail g src d = .oom d') : d' = d := by
  unfold conv8 at h
  repeat' split at h
  all_goals first | (cases h; done) | (cases h; rfl)
theorem conv16_oom (step) (tail : Nat) (g : Grow) (src : List Nat) (d d' : Dst) (h : conv16 step tail g src d = .oom d') : d' = d := by
  unfold conv16 at h
  repeat' split at h
  all_goals first | (cases h; done) | (cases h; rfl)
theorem endian_oom (swap) (g : Grow) (src : List Nat) (d d' : Dst) (h : endian swap g src d = .oom d') : d' = d := by
  unfold endian at h
  repeat' split at h
  all_goals first | (cases h; done) | (cases h; rfl)

/-- C59 for every conversion except UTF-16LE to UTF-8: whenever the allocator fails, the destination text is what it was before. -/
theorem C59_oom_keeps_text_partial (g : Grow) (hg : Good g) (src : List Nat) (d : Dst) (hd : d.buf.length ≤ d.cap)
    (conv) (hc : conv ∈ [u8to16LE, u8to16BE, u8to32LE, u8to32BE, u16BEto8, u16LEto32LE, u16LEto32BE, u16BEto32LE, u16BEto32BE,
      u32LEto8, u32BEto8, u32LEto16LE, u32LEto16BE, u32BEto16LE, u32BEto16BE, endian swap16, endian swap32])
    (d' : Dst) (h : conv g src d = .oom d') : d'.buf = d.buf := by
  simp only [List.mem_cons, List.not_mem_nil, or_false] at hc
  rcases hc with rfl | rfl | rfl | rfl | rfl | rfl | rfl | rfl | rfl | rfl | rfl | rfl | rfl | rfl | rfl | rfl | rfl
  · rw [conv8_oom _ _ _ _ _ _ h]
  · rw [conv8_oom _ _ _ _ _ _ h]
  · rw [conv8_oom _ _ _ _ _ _ h]
  · rw [conv8_oom _ _ _ _ _ _ h]
  · exact (convG_ok _ 4 3 true bound16BEto8 g hg src d hd).2 rfl d' h
  · rw [conv16_oom _ _ _ _ _ _ h]
  · rw [(u16LEto32BE_app g hg src d hd).2 d' h]
  · rw [conv16_oom _ _ _ _ _ _ h]
  · rw [conv16_oom _ _ _ _ _ _ h]
  · exact (convG_ok _ 6 3 true bound32LEto8 g hg src d hd).2 rfl d' h
  · exact (convG_ok _ 6 3 true bound32BEto8 g hg src d hd).2 rfl d' h
  · exact (convG_ok _ 2 1 true bound32LEto16LE g hg src d hd).2 rfl d' h
  · exact (convG_ok _ 2 1 true bound32LEto16BE g hg src d hd).2 rfl d' h
  · exact (convG_ok _ 2 1 true bound32BEto16LE g hg src d hd).2 rfl d' h
  · exact (convG_ok _ 2 1 true bound32BEto16BE g hg src d hd).2 rfl d' h
  · rw [endian_oom _ _ _ _ _ h]
  · rw [endian_oom _ _ _ _ _ h]

/-- C59 does not hold for UTF-16LE to UTF-8: appending one character to the text "ab" in a buffer of 5 units with an allocator that fails leaves an empty text. -/
theorem C59_fails : u16LEto8 (fun _ _ => none) [0x63] ⟨[0x61, 0x62], 5⟩ = .oom ⟨[], 5⟩ := by decide

#print axioms C01_utf8_decode
#print axioms C02_round_trip_partial
#print axioms C02_fails
#print axioms C03_utf16_decode_partial
#print axioms C03_fails
#print axioms C04_utf32_to_utf16_partial
#print axioms C04_fails
#print axioms C05_endian_partial
#print axioms C05_fails
#print axioms C06_no_overflow
#print axioms C59_oom_keeps_text_partial
#print axioms C59_fails
end Verif.Utf
