import Verif.Utf.Exact8
/-!
# C02, C04 and C05: exactly which texts are converted correctly
-/
namespace Verif.Utf
open Spec

/-! ## C02 -/

/-- what the library writes for a unit from 0x4000000 on is read as something that starts with '?' -/
theorem out8_32_bad (n : Nat) (h1 : 0x4000000 ≤ n) (rest : List Nat) : ∃ o, out8 step8to32LE q (emit32LEto8 n ++ rest) = q :: o := by
  unfold emit32LEto8
  repeat rw [if_neg (by omega)]
  split
  · rw [and1, orFC _ (by omega)]
    simp only [shr30, List.cons_append, List.nil_append]
    rw [out8_cons (o := [q]) (k := 0)]
    · exact ⟨_, rfl⟩
    · unfold step8to32LE
      rw [if_neg (by omega), if_pos (by omega)]
      simp only [cont_F0 (n >>> 24 &&& 0x3F) (by rw [and3F]; omega), Bool.false_and, Bool.false_eq_true, if_false]
  · simp only [List.cons_append, List.nil_append]
    rw [out8_cons (o := [q]) (k := 0)]
    · exact ⟨_, rfl⟩
    · unfold step8to32LE q
      rfl

theorem flat_back (l : List Nat) : out8 step8to32LE q (l.flatMap emit32LEto8) = l ↔ ∀ n ∈ l, n < 0x4000000 := by
  constructor
  · induction l with
    | nil => intro _ n hn; cases hn
    | cons a l ih =>
      intro h
      rw [List.flatMap_cons] at h
      by_cases ha : a < 0x4000000
      · rw [emit32LEto8_eq a ha, out8_32_enc q a ha] at h
        intro n hn
        rcases List.mem_cons.1 hn with e | hn
        · rw [e]; exact ha
        · exact ih (List.cons.inj h).2 n hn
      · obtain ⟨o, ho⟩ := out8_32_bad a (by omega) (l.flatMap emit32LEto8)
        rw [ho] at h
        have := (List.cons.inj h).1
        unfold q at this
        omega
  · intro h
    rw [flat_32to8 l h, out8_32_flat q l h]

/-- **C02, exactly**: a sequence of 32-bit units comes back from UTF-8 if and only if all its units are below 0x4000000; one unit beyond spoils the result wherever it stands. -/
theorem C02_iff (g : Grow) (hg : Good g) (ht : Total g) (l : List Nat) (d e : Dst) (hd : d.buf = []) (he : e.buf.length ≤ e.cap) :
    ∃ m c, u32LEto8 g l d = .ok ⟨m, c⟩ ∧ ((∃ c', u8to32LE g m e = .ok ⟨e.buf ++ l, c'⟩) ↔ ∀ n ∈ l, n < 0x4000000) := by
  have hd' : d.buf.length ≤ d.cap := by rw [hd]; simp
  obtain ⟨c, h3⟩ := (convG_ok (noLast emit32LEto8) 6 3 true bound32LEto8 g hg l d hd').1.ok ht
  rw [out16_noLast, hd, List.nil_append] at h3
  refine ⟨_, c, h3, ?_⟩
  obtain ⟨c'', h5⟩ := (conv8_ok _ q bound8to32LE g hg (l.flatMap emit32LEto8) e he).ok ht
  rw [show u8to32LE g = conv8 step8to32LE q g from rfl, h5, ← flat_back l]
  constructor
  · rintro ⟨c', h⟩
    injection h with h; injection h with h _; exact List.append_cancel_left h
  · intro h; rw [h]; exact ⟨_, rfl⟩

/-! ## C04 -/

theorem emit_supp (n : Nat) (h1 : 0x10000 ≤ n) (h2 : n < 0x110000) : ∃ a b a' b', emit32LEto16LE n = [a, b] ∧ utf16 n = [a', b'] ∧ a ≠ a' := by
  refine ⟨((n - 0x10000) / 1024 + 0xD800) % 256, ((n - 0x10000) % 1024 + 0xDC00) % 256, 0xD800 + (n - 0x10000) / 1024, 0xDC00 + (n - 0x10000) % 1024, ?_, ?_, by omega⟩
  · unfold emit32LEto16LE
    rw [if_neg (by omega), if_pos h2]
    simp only [shr10, and3FF]
  · rw [utf16, if_neg (by omega)]

theorem flat_16 (l : List Nat) (hl : ∀ n ∈ l, Scalar n) : l.flatMap emit32LEto16LE = utf16s l ↔ ∀ n ∈ l, n < 0x10000 := by
  unfold utf16s
  induction l with
  | nil => exact ⟨(fun _ n hn => by cases hn), fun _ => rfl⟩
  | cons a l ih =>
    rw [List.flatMap_cons, List.flatMap_cons]
    have ih := ih fun n hn => hl n (List.mem_cons_of_mem _ hn)
    by_cases ha : a < 0x10000
    · have e : emit32LEto16LE a = utf16 a := by
        unfold emit32LEto16LE utf16
        rw [if_pos ha, if_pos ha, show a % 2 ^ 16 = a by omega]
      rw [e]
      constructor
      · intro h n hn
        rcases List.mem_cons.1 hn with e | hn
        · rw [e]; exact ha
        · exact ih.1 (List.append_cancel_left h) n hn
      · intro h; rw [ih.2 fun n hn => h n (List.mem_cons_of_mem _ hn)]
    · have h2 := (hl a (List.mem_cons_self)).1
      obtain ⟨x, y, x', y', e1, e2, e3⟩ := emit_supp a (by omega) (by omega)
      constructor
      · intro h; rw [e1, e2] at h
        exact absurd (List.cons.inj h).1 e3
      · intro h; exact absurd (h a List.mem_cons_self) ha

/-- **C04, exactly**: little-endian UTF-32 to little-endian UTF-16 is right for a text if and only if it contains no supplementary character. -/
theorem C04_iff (g : Grow) (hg : Good g) (ht : Total g) (l : List Nat) (hl : ∀ n ∈ l, Scalar n) (d : Dst) (hd : d.buf.length ≤ d.cap) :
    (∃ c, u32LEto16LE g l d = .ok ⟨d.buf ++ utf16s l, c⟩) ↔ ∀ n ∈ l, n < 0x10000 := by
  obtain ⟨c, h⟩ := C04_aux g hg ht _ bound32LEto16LE l d hd
  rw [show u32LEto16LE g = convG (noLast emit32LEto16LE) 2 1 true g from rfl, h, ← flat_16 l hl]
  constructor
  · rintro ⟨c', h⟩
    injection h with h; injection h with h _; exact List.append_cancel_left h
  · intro h; rw [h]; exact ⟨_, rfl⟩

/-! ## C05 -/

/-- no multi-byte form is cut off by the end of the text, and no six byte form is broken -/
def Whole : List Nat → Prop
  | [] => True
  | b :: rest =>
    if b < 0xC0 ∨ 0xFE ≤ b then Whole rest
    else if rest.length < need b then False
    else if ∀ c ∈ rest.take (need b), Cont c then Whole (rest.drop (need b))
    else need b ≠ 5 ∧ Whole rest
termination_by l => l.length
decreasing_by all_goals (simp [List.length_drop]; try omega)

theorem swap_q : swap32 q ≠ q := by decide

theorem step32BE_high (b : Nat) (rest : List Nat) (h : 0xFE ≤ b) : step8to32BE b rest = some ([swap32 q], 0) := by
  unfold step8to32BE; rw [if_pos h]

theorem step32BE_six (b : Nat) (rest : List Nat) (h : 0xFC ≤ b) (h' : b < 0xFE) (hl : step8to32LE b rest = some ([q], 0)) : step8to32BE b rest = some ([q], 0) := by
  unfold step8to32LE at hl
  unfold step8to32BE
  rw [if_neg (by omega), if_pos h] at hl ⊢
  match rest, hl with
  | b1 :: b2 :: b3 :: b4 :: b5 :: t, hl =>
    dsimp only at hl ⊢
    split at hl
    · exact absurd (congrArg (Option.map Prod.snd) hl) (by simp)
    · rename_i hc; rw [if_neg hc]
  | [], hl => cases hl
  | [_], hl => cases hl
  | [_, _], hl => cases hl
  | [_, _, _], hl => cases hl
  | [_, _, _, _], hl => cases hl

theorem step32BE_low (b : Nat) (rest : List Nat) (h : b < 0xFC) : step8to32BE b rest = (step8to32LE b rest).map (fun p => (p.1.map swap32, p.2)) := by
  rcases step32BE_eq b rest with e | ⟨_, _, e⟩
  · exact e
  · omega

theorem step32BE_some (b : Nat) (rest : List Nat) (x k : Nat) (h : b < 0xFC) (e : step8to32LE b rest = some ([x], k)) : step8to32BE b rest = some ([swap32 x], k) := by
  rw [step32BE_low b rest h, e]; rfl

theorem out8_none {step tail ch rest} (h : step ch rest = none) : out8 step tail (ch :: rest) = [tail] := by
  rw [out8, h]

theorem whole_iff (src : List Nat) : (∀ c ∈ src, c < 256) → (out8 step8to32BE q src = (out8 step8to32LE q src).map swap32 ↔ Whole src) := by
  induction src using len_ind with
  | h src ih =>
    intro hr
    cases src with
    | nil => simp [out8, Whole]
    | cons b rest =>
      have hr' : ∀ c ∈ rest, c < 256 := fun c h => hr c (by simp [h])
      have hd : ∀ k, ∀ c ∈ rest.drop k, c < 256 := fun k c h => hr' c (List.mem_of_mem_drop h)
      have i0 := ih rest (by simp) hr'
      have hs := step32_spec b rest hr'
      unfold spec32 at hs
      rw [Whole]
      -- a step that writes one unit in both byte orders
      have good : ∀ x k, step8to32LE b rest = some ([x], k) → step8to32BE b rest = some ([swap32 x], k) →
          (out8 step8to32BE q (b :: rest) = (out8 step8to32LE q (b :: rest)).map swap32 ↔ out8 step8to32BE q (rest.drop k) = (out8 step8to32LE q (rest.drop k)).map swap32) := by
        intro x k e1 e2
        rw [out8_cons e1, out8_cons e2]
        simp
      by_cases h0 : b < 0x80
      · rw [if_pos h0] at hs
        rw [if_pos (Or.inl (by omega)), good b 0 hs (step32BE_some b rest _ 0 (by omega) hs)]
        exact i0
      · rw [if_neg h0] at hs
        by_cases h1 : b < 0xC0 ∨ 0xFE ≤ b
        · rw [if_pos h1] at hs
          rw [if_pos h1, good q 0 hs ?_]
          · exact i0
          · rcases h1 with h1 | h1
            · exact step32BE_some b rest _ 0 (by omega) hs
            · exact step32BE_high b rest h1
        · rw [if_neg h1] at hs
          rw [if_neg h1]
          by_cases h2 : rest.length < need b
          · rw [if_pos h2] at hs
            rw [if_pos h2]
            have e2 : step8to32BE b rest = none := by
              rcases step32BE_eq b rest with e | ⟨_, e, _⟩
              · rw [e, hs]; rfl
              · rw [hs] at e; cases e
            rw [out8_none hs, out8_none e2]
            simp only [List.map_cons, List.map_nil, List.cons.injEq, and_true, iff_false]
            exact fun e => swap_q e.symm
          · rw [if_neg h2] at hs
            rw [if_neg h2]
            by_cases h3 : ∀ c ∈ rest.take (need b), Cont c
            · rw [if_pos h3] at hs
              rw [if_pos h3, good _ _ hs ?_]
              · exact ih _ (by simp; omega) (hd _)
              · rcases step32BE_eq b rest with e | ⟨_, e, _⟩
                · rw [e, hs]; rfl
                · rw [hs] at e
                  have e := congrArg (Option.map Prod.snd) e
                  simp only [Option.map_some, Option.some.injEq] at e
                  have := (@need_lt b).2; omega
            · rw [if_neg h3] at hs
              rw [if_neg h3]
              by_cases h4 : 0xFC ≤ b
              · have e2 := step32BE_six b rest h4 (by omega) hs
                rw [out8_cons hs, out8_cons e2, need_5 h4]
                simp only [List.cons_append, List.nil_append, List.map_cons, List.cons.injEq]
                exact ⟨fun e => absurd e.1.symm swap_q, fun e => absurd rfl e.1⟩
              · have h5 : need b ≠ 5 := by
                  unfold need
                  repeat' split
                  all_goals omega
                rw [good q 0 hs (step32BE_some b rest _ 0 (by omega) hs)]
                exact ⟨fun e => ⟨h5, i0.1 e⟩, fun e => i0.2 e.2⟩

/-- **C05, exactly**, UTF-8 to UTF-32: the two byte orders agree if and only if no multi-byte form is cut off by the end of the text and no six byte form is broken. -/
theorem C05_iff_8to32 (g : Grow) (hg : Good g) (ht : Total g) (src : List Nat) (hs : ∀ c ∈ src, c < 256) (d : Dst) (hd : d.buf.length ≤ d.cap) :
    ∃ o o' c c', u8to32LE g src d = .ok ⟨d.buf ++ o, c⟩ ∧ u8to32BE g src d = .ok ⟨d.buf ++ o', c'⟩ ∧ (o' = o.map rev32 ↔ Whole src) := by
  obtain ⟨c, h⟩ := (conv8_ok _ q bound8to32LE g hg src d hd).ok ht
  obtain ⟨c', h'⟩ := (conv8_ok _ q bound8to32BE g hg src d hd).ok ht
  refine ⟨_, _, c, c', h, h', ?_⟩
  rw [← map_swap32]; exact whole_iff src hs

theorem rev16_cut (y : Nat) (h : 256 ≤ y) (h' : y < 65536) : rev16 (y % 2 ^ 16) ≠ rev16 (y % 2 ^ 8) := by
  rw [Nat.mod_eq_of_lt (by omega : y < 2 ^ 16)]
  unfold rev16
  intro e
  have e2 : y % 2 ^ 8 / 256 = 0 := Nat.div_eq_of_lt (Nat.mod_lt y (by omega))
  rw [e2, Nat.zero_mod] at e
  have e3 : y / 256 % 256 = y / 256 := Nat.mod_eq_of_lt (by omega)
  have e4 : 0 < y / 256 := by omega
  rw [e3] at e
  have e5 : y / 256 < 256 := by omega
  generalize y / 256 = k at *
  generalize y % 256 = m at *
  generalize y % 2 ^ 8 % 256 = m' at *
  omega

theorem emit16BE_small {n : Nat} (h : n < 0x10000) : emit32LEto16BE n = [swap16 (n % 2 ^ 16)] := by
  unfold emit32LEto16BE; rw [if_pos h]

theorem emit16LE_small {n : Nat} (h : n < 0x10000) : emit32LEto16LE n = [n % 2 ^ 16] := by
  unfold emit32LEto16LE; rw [if_pos h]

theorem emit16BE_supp {n : Nat} (h : ¬ n < 0x10000) (h' : n < 0x110000) :
    emit32LEto16BE n = [swap16 (((n - 0x10000) >>> 10 + 0xD800) % 2 ^ 16), swap16 ((((n - 0x10000) &&& 0x3FF) + 0xDC00) % 2 ^ 16)] := by
  unfold emit32LEto16BE; rw [if_neg h, if_pos h']

theorem emit16LE_supp {n : Nat} (h : ¬ n < 0x10000) (h' : n < 0x110000) :
    emit32LEto16LE n = [((n - 0x10000) >>> 10 + 0xD800) % 2 ^ 8, (((n - 0x10000) &&& 0x3FF) + 0xDC00) % 2 ^ 8] := by
  unfold emit32LEto16LE; rw [if_neg h, if_pos h']

theorem emit16BE_big {n : Nat} (h : ¬ n < 0x10000) (h' : ¬ n < 0x110000) : emit32LEto16BE n = [q] := by
  unfold emit32LEto16BE; rw [if_neg h, if_neg h']

theorem emit16LE_big {n : Nat} (h : ¬ n < 0x10000) (h' : ¬ n < 0x110000) : emit32LEto16LE n = [q] := by
  unfold emit32LEto16LE; rw [if_neg h, if_neg h']

theorem len_32to16 (n : Nat) : (emit32LEto16BE n).length = ((emit32LEto16LE n).map rev16).length := by
  rw [List.length_map]
  by_cases h : n < 0x10000
  · rw [emit16BE_small h, emit16LE_small h, List.length_singleton, List.length_singleton]
  · by_cases h' : n < 0x110000
    · rw [emit16BE_supp h h', emit16LE_supp h h']
      simp only [List.length_cons, List.length_nil]
    · rw [emit16BE_big h h', emit16LE_big h h']

theorem emit_32to16 (n : Nat) : emit32LEto16BE n = (emit32LEto16LE n).map rev16 ↔ n < 0x10000 := by
  by_cases h1 : n < 0x10000
  · rw [emit16BE_small h1, emit16LE_small h1, swap16_eq, List.map_cons, List.map_nil]
    exact ⟨fun _ => h1, fun _ => rfl⟩
  · refine ⟨fun h => ?_, fun h => absurd h h1⟩
    exfalso
    by_cases h2 : n < 0x110000
    · rw [emit16BE_supp h1 h2, emit16LE_supp h1 h2, List.map_cons, swap16_eq, shr10] at h
      have h := (List.cons.inj h).1
      have hx : (n - 65536) / 1024 < 1024 := by omega
      generalize (n - 65536) / 1024 = x at h hx
      exact rev16_cut _ (by omega) (by omega) h
    · rw [emit16BE_big h1 h2, emit16LE_big h1 h2] at h
      have h := (List.cons.inj h).1
      exact absurd h (by decide)

/-- **C05, exactly**, little-endian UTF-32 to UTF-16: the two byte orders agree if and only if all units are below 0x10000. -/
theorem C05_iff_32to16 (g : Grow) (hg : Good g) (ht : Total g) (src : List Nat) (d : Dst) (hd : d.buf.length ≤ d.cap) :
    ∃ o o' c c', u32LEto16LE g src d = .ok ⟨d.buf ++ o, c⟩ ∧ u32LEto16BE g src d = .ok ⟨d.buf ++ o', c'⟩ ∧ (o' = o.map rev16 ↔ ∀ n ∈ src, n < 0x10000) := by
  obtain ⟨c, h⟩ := C04_aux g hg ht _ bound32LEto16LE src d hd
  obtain ⟨c', h'⟩ := C04_aux g hg ht _ bound32LEto16BE src d hd
  refine ⟨_, _, c, c', h, h', ?_⟩
  clear h h' hd d c c' ht hg g
  induction src with
  | nil => exact ⟨fun _ n hn => (by cases hn), fun _ => rfl⟩
  | cons a l ih =>
    rw [List.flatMap_cons, List.flatMap_cons, List.map_append]
    constructor
    · intro h n hn
      obtain ⟨e1, e2⟩ := List.append_inj h (len_32to16 a)
      rcases List.mem_cons.1 hn with e | hn
      · rw [e]; exact (emit_32to16 a).1 e1
      · exact ih.1 e2 n hn
    · intro h
      rw [(emit_32to16 a).2 (h a List.mem_cons_self), ih.2 fun n hn => h n (List.mem_cons_of_mem _ hn)]

/-- cases of both kinds -/
theorem C05_iff_example : Whole [0x41, 0xE4, 0xB8, 0xAD, 0xE4, 0x41, 0x41] ∧ ¬ Whole [0x41, 0xE4] ∧ ¬ Whole [0xFC, 1, 1, 1, 1, 1] := by
  refine ⟨?_, ?_, ?_⟩ <;> simp [Whole, need, Cont]

end Verif.Utf
