import Verif.Utf.Exact16
import Verif.Utf.Ansi
/-! # C07: exactly what the conversions from UTF-8 do with every sequence of bytes, and exactly when that is right -/
namespace Verif.Utf
open Spec

/-! ## Specification -/

/-- continuation byte -/
def Cont (b : Nat) : Prop := 0x80 ≤ b ∧ b < 0xC0
instance (b) : Decidable (Cont b) := by unfold Cont; infer_instance

/-- the number in a lead byte and its continuation bytes -/
def val (b : Nat) (cs : List Nat) : Nat := cs.foldl (fun a c => a * 64 + c % 64) (b % 2 ^ (6 - cs.length))

/-- Reference: every well-formed character gives itself, every byte at which none starts gives '?'. -/
inductive Ref8 : List Nat → List Nat → Prop
  | nil : Ref8 [] []
  | char (n : Nat) (bs out : List Nat) (h : Scalar n) (hs : Ref8 bs out) : Ref8 (utf8 n ++ bs) (n :: out)
  | bad (b : Nat) (bs out : List Nat) (h : ∀ n, Scalar n → ¬ utf8 n <+: b :: bs) (hs : Ref8 bs out) : Ref8 (b :: bs) (0x3F :: out)

/-- The forms found by the code, with the number of continuation bytes and the number encoded; `m`: longest form known (number of continuation bytes).
A form cut off by the end of the text ends the conversion. -/
def scan8 (m : Nat) : List Nat → List (Nat × Nat)
  | [] => []
  | b :: rest =>
    if b < 0x80 then (0, b) :: scan8 m rest
    else if b < 0xC0 ∨ 0xFE ≤ b ∨ m < need b then (0, 0x3F) :: scan8 m rest
    else if rest.length < need b then [(0, 0x3F)]
    else if ∀ c ∈ rest.take (need b), Cont c then (need b, val b (rest.take (need b))) :: scan8 m (rest.drop (need b))
    else (0, 0x3F) :: scan8 m rest
termination_by l => l.length
decreasing_by all_goals (simp [List.length_drop]; try omega)

/-- UTF-16 as written by the code: forms of four bytes always give two units -/
def units (t : Nat × Nat) : List Nat := if t.1 = 3 then [0xD7C0 + t.2 / 1024, 0xDC00 + t.2 % 1024] else [t.2]

/-- The forms found are characters, and nothing follows a form that is cut off. -/
def Sound8 (m : Nat) : List Nat → Prop
  | [] => True
  | b :: rest =>
    if b < 0xC0 ∨ 0xFE ≤ b ∨ m < need b then Sound8 m rest
    else if rest.length < need b then rest = []
    else if ∀ c ∈ rest.take (need b), Cont c then
      (Scalar (val b (rest.take (need b))) ∧ utf8 (val b (rest.take (need b))) = b :: rest.take (need b)) ∧ Sound8 m (rest.drop (need b))
    else Sound8 m rest
termination_by l => l.length
decreasing_by all_goals (simp [List.length_drop]; try omega)

/-! ## The loops -/
theorem cont_dec (b : Nat) (h : b < 256) : cont b = decide (Cont b) := by
  have := cont_iff b h
  unfold Cont
  cases hc : cont b with
  | true => exact (decide_eq_true (this.1 hc)).symm
  | false => refine (decide_eq_false fun h' => ?_).symm; rw [this.2 h'] at hc; cases hc

def spec32 (b : Nat) (rest : List Nat) : Option (List Nat × Nat) :=
  if b < 0x80 then some ([b], 0)
  else if b < 0xC0 ∨ 0xFE ≤ b then some ([q], 0)
  else if rest.length < need b then none
  else if ∀ c ∈ rest.take (need b), Cont c then some ([val b (rest.take (need b))], need b)
  else some ([q], 0)

theorem need_5 {b : Nat} (h : 0xFC ≤ b) : need b = 5 := by unfold need; repeat rw [if_neg (by omega)]
theorem need_4 {b : Nat} (h : 0xF8 ≤ b) (h' : b < 0xFC) : need b = 4 := by unfold need; (repeat rw [if_neg (by omega)]); rw [if_pos (by omega)]
theorem need_3 {b : Nat} (h : 0xF0 ≤ b) (h' : b < 0xF8) : need b = 3 := by unfold need; rw [if_neg (by omega), if_neg (by omega), if_pos (by omega)]
theorem need_2 {b : Nat} (h : 0xE0 ≤ b) (h' : b < 0xF0) : need b = 2 := by unfold need; rw [if_neg (by omega), if_pos (by omega)]
theorem need_1 {b : Nat} (h' : b < 0xE0) : need b = 1 := by unfold need; rw [if_pos (by omega)]

theorem dec6 (a b c d e f : Nat) : ((a &&& 0x1) <<< 30) ||| ((b &&& 0x3F) <<< 24) ||| ((c &&& 0x3F) <<< 18) ||| ((d &&& 0x3F) <<< 12) ||| ((e &&& 0x3F) <<< 6) ||| ((f &&& 0x3F) <<< 0)
    = a % 2 * 1073741824 + b % 64 * 16777216 + c % 64 * 262144 + d % 64 * 4096 + e % 64 * 64 + f % 64 := by
  rw [and1, and3F, and3F, and3F, and3F, and3F, Nat.shiftLeft_zero, Nat.or_assoc, Nat.or_assoc, Nat.or_assoc, Nat.or_assoc, join 6 _ _ (by omega), join 12 _ _ (by omega),
    join 18 _ _ (by omega), join 24 _ _ (by omega), join 30 _ _ (by omega)]; omega

theorem val_1 (b b1 : Nat) : val b [b1] = b % 32 * 64 + b1 % 64 := by
  show (b % 32) * 64 + b1 % 64 = _
  omega
theorem all_1 (b1 : Nat) : (∀ c ∈ [b1], Cont c) ↔ Cont b1 := by simp
theorem short_1 (b1 : Nat) (t : List Nat) : ¬ (b1 :: t).length < 1 := by simp
theorem val_2 (b b1 b2 : Nat) : val b [b1, b2] = b % 16 * 4096 + b1 % 64 * 64 + b2 % 64 := by
  show ((b % 16) * 64 + b1 % 64) * 64 + b2 % 64 = _
  omega
theorem all_2 (b1 b2 : Nat) : (∀ c ∈ [b1, b2], Cont c) ↔ Cont b1 ∧ Cont b2 := by simp
theorem short_2 (b1 b2 : Nat) (t : List Nat) : ¬ (b1 :: b2 :: t).length < 2 := by simp
theorem val_3 (b b1 b2 b3 : Nat) : val b [b1, b2, b3] = b % 8 * 262144 + b1 % 64 * 4096 + b2 % 64 * 64 + b3 % 64 := by
  show (((b % 8) * 64 + b1 % 64) * 64 + b2 % 64) * 64 + b3 % 64 = _
  omega
theorem all_3 (b1 b2 b3 : Nat) : (∀ c ∈ [b1, b2, b3], Cont c) ↔ Cont b1 ∧ Cont b2 ∧ Cont b3 := by simp
theorem short_3 (b1 b2 b3 : Nat) (t : List Nat) : ¬ (b1 :: b2 :: b3 :: t).length < 3 := by simp
theorem val_4 (b b1 b2 b3 b4 : Nat) : val b [b1, b2, b3, b4] = b % 4 * 16777216 + b1 % 64 * 262144 + b2 % 64 * 4096 + b3 % 64 * 64 + b4 % 64 := by
  show ((((b % 4) * 64 + b1 % 64) * 64 + b2 % 64) * 64 + b3 % 64) * 64 + b4 % 64 = _
  omega
theorem all_4 (b1 b2 b3 b4 : Nat) : (∀ c ∈ [b1, b2, b3, b4], Cont c) ↔ Cont b1 ∧ Cont b2 ∧ Cont b3 ∧ Cont b4 := by simp
theorem short_4 (b1 b2 b3 b4 : Nat) (t : List Nat) : ¬ (b1 :: b2 :: b3 :: b4 :: t).length < 4 := by simp
theorem val_5 (b b1 b2 b3 b4 b5 : Nat) : val b [b1, b2, b3, b4, b5] = b % 2 * 1073741824 + b1 % 64 * 16777216 + b2 % 64 * 262144 + b3 % 64 * 4096 + b4 % 64 * 64 + b5 % 64 := by
  show (((((b % 2) * 64 + b1 % 64) * 64 + b2 % 64) * 64 + b3 % 64) * 64 + b4 % 64) * 64 + b5 % 64 = _
  omega
theorem all_5 (b1 b2 b3 b4 b5 : Nat) : (∀ c ∈ [b1, b2, b3, b4, b5], Cont c) ↔ Cont b1 ∧ Cont b2 ∧ Cont b3 ∧ Cont b4 ∧ Cont b5 := by simp
theorem short_5 (b1 b2 b3 b4 b5 : Nat) (t : List Nat) : ¬ (b1 :: b2 :: b3 :: b4 :: b5 :: t).length < 5 := by simp

theorem step32_spec (b : Nat) (rest : List Nat) (hr : ∀ c ∈ rest, c < 256) : step8to32LE b rest = spec32 b rest := by
  unfold step8to32LE spec32
  by_cases h6 : b ≥ 0xFE
  · rw [if_pos h6, if_neg (by omega), if_pos (by omega)]
  rw [if_neg h6]
  by_cases h5 : b ≥ 0xFC
  · rw [if_pos h5, if_neg (by omega), if_neg (by omega), need_5 h5]
    match rest, hr with
    | b1 :: b2 :: b3 :: b4 :: b5 :: t, hr =>
      rw [if_neg (short_5 b1 b2 b3 b4 b5 t)]
      simp only [cont_dec b1 (hr _ (by simp)), cont_dec b2 (hr _ (by simp)), cont_dec b3 (hr _ (by simp)), cont_dec b4 (hr _ (by simp)), cont_dec b5 (hr _ (by simp)), List.take_succ_cons, List.take_zero, all_5, val_5, dec6]
      by_cases hc : Cont b1 ∧ Cont b2 ∧ Cont b3 ∧ Cont b4 ∧ Cont b5
      · rw [if_pos hc, if_pos (by simp [hc])]
      · rw [if_neg hc, if_neg (by simpa [and_assoc] using hc)]
    | [], _ => simp
    | [_], _ => simp
    | [_, _], _ => simp
    | [_, _, _], _ => simp
    | [_, _, _, _], _ => simp
  rw [if_neg h5]
  by_cases h4 : b ≥ 0xF8
  · rw [if_pos h4, if_neg (by omega), if_neg (by omega), need_4 h4 (by omega)]
    match rest, hr with
    | b1 :: b2 :: b3 :: b4 :: t, hr =>
      rw [if_neg (short_4 b1 b2 b3 b4 t)]
      simp only [cont_dec b1 (hr _ (by simp)), cont_dec b2 (hr _ (by simp)), cont_dec b3 (hr _ (by simp)), cont_dec b4 (hr _ (by simp)), List.take_succ_cons, List.take_zero, all_4, val_4, dec5]
      by_cases hc : Cont b1 ∧ Cont b2 ∧ Cont b3 ∧ Cont b4
      · rw [if_pos hc, if_pos (by simp [hc])]
      · rw [if_neg hc, if_neg (by simpa [and_assoc] using hc)]
    | [], _ => simp
    | [_], _ => simp
    | [_, _], _ => simp
    | [_, _, _], _ => simp
  rw [if_neg h4]
  by_cases h3 : b ≥ 0xF0
  · rw [if_pos h3, if_neg (by omega), if_neg (by omega), need_3 h3 (by omega)]
    match rest, hr with
    | b1 :: b2 :: b3 :: t, hr =>
      rw [if_neg (short_3 b1 b2 b3 t)]
      simp only [cont_dec b1 (hr _ (by simp)), cont_dec b2 (hr _ (by simp)), cont_dec b3 (hr _ (by simp)), List.take_succ_cons, List.take_zero, all_3, val_3, dec4]
      by_cases hc : Cont b1 ∧ Cont b2 ∧ Cont b3
      · rw [if_pos hc, if_pos (by simp [hc])]
      · rw [if_neg hc, if_neg (by simpa [and_assoc] using hc)]
    | [], _ => simp
    | [_], _ => simp
    | [_, _], _ => simp
  rw [if_neg h3]
  by_cases h2 : b ≥ 0xE0
  · rw [if_pos h2, if_neg (by omega), if_neg (by omega), need_2 h2 (by omega)]
    match rest, hr with
    | b1 :: b2 :: t, hr =>
      rw [if_neg (short_2 b1 b2 t)]
      simp only [cont_dec b1 (hr _ (by simp)), cont_dec b2 (hr _ (by simp)), List.take_succ_cons, List.take_zero, all_2, val_2, dec3]
      by_cases hc : Cont b1 ∧ Cont b2
      · rw [if_pos hc, if_pos (by simp [hc])]
      · rw [if_neg hc, if_neg (by simpa [and_assoc] using hc)]
    | [], _ => simp
    | [_], _ => simp
  rw [if_neg h2]
  by_cases h1 : b ≥ 0xC0
  · rw [if_pos h1, if_neg (by omega), if_neg (by omega), need_1 (by omega)]
    match rest, hr with
    | b1 :: t, hr =>
      rw [if_neg (short_1 b1 t)]
      simp only [cont_dec b1 (hr _ (by simp)), List.take_succ_cons, List.take_zero, all_1, val_1, dec2]
      by_cases hc : Cont b1
      · rw [if_pos hc, if_pos (by simp [hc])]
      · rw [if_neg hc, if_neg (by simpa [and_assoc] using hc)]
    | [], _ => simp
  rw [if_neg h1]
  by_cases h0 : b ≥ 0x80
  · rw [if_pos h0, if_neg (by omega), if_pos (by omega)]
  · rw [if_neg h0, if_pos (by omega)]

def spec16 (b : Nat) (rest : List Nat) : Option (List Nat × Nat) :=
  if b < 0x80 then some ([b], 0)
  else if b < 0xC0 ∨ 0xF8 ≤ b then some ([q], 0)
  else if rest.length < need b then none
  else if ∀ c ∈ rest.take (need b), Cont c then some (units (need b, val b (rest.take (need b))), need b)
  else some ([q], 0)

theorem units_3 (n : Nat) (h : n < 0x200000) :
    [(((n + 2 ^ 32 - 0x10000) % 2 ^ 32) / 1024 + 0xD800) % 2 ^ 16, ((n + 2 ^ 32 - 0x10000) % 2 ^ 32 % 1024 + 0xDC00) % 2 ^ 16] = units (3, n) := by
  unfold units
  rw [if_pos rfl]
  have e1 : (((n + 2 ^ 32 - 0x10000) % 2 ^ 32) / 1024 + 0xD800) % 2 ^ 16 = 0xD7C0 + n / 1024 := by omega
  have e2 : ((n + 2 ^ 32 - 0x10000) % 2 ^ 32 % 1024 + 0xDC00) % 2 ^ 16 = 0xDC00 + n % 1024 := by omega
  rw [e1, e2]

theorem step16_spec (b : Nat) (rest : List Nat) (hr : ∀ c ∈ rest, c < 256) : step8to16LE b rest = spec16 b rest := by
  unfold step8to16LE spec16
  by_cases h4 : b ≥ 0xF8
  · rw [if_pos h4, if_neg (by omega), if_pos (by omega)]
  rw [if_neg h4]
  by_cases h3 : b ≥ 0xF0
  · rw [if_pos h3, if_neg (by omega), if_neg (by omega), need_3 h3 (by omega)]
    match rest, hr with
    | b1 :: b2 :: b3 :: t, hr =>
      rw [if_neg (short_3 b1 b2 b3 t)]
      simp only [cont_dec b1 (hr _ (by simp)), cont_dec b2 (hr _ (by simp)), cont_dec b3 (hr _ (by simp)), List.take_succ_cons, List.take_zero, all_3, val_3, dec4]
      by_cases hc : Cont b1 ∧ Cont b2 ∧ Cont b3
      · rw [if_pos hc, if_pos (by simp [hc])]
        rw [← units_3 _ (by omega), shr10, and3FF]
      · rw [if_neg hc, if_neg (by simpa [and_assoc] using hc)]
    | [], _ => simp
    | [_], _ => simp
    | [_, _], _ => simp
  rw [if_neg h3]
  by_cases h2 : b ≥ 0xE0
  · rw [if_pos h2, if_neg (by omega), if_neg (by omega), need_2 h2 (by omega)]
    match rest, hr with
    | b1 :: b2 :: t, hr =>
      rw [if_neg (short_2 b1 b2 t)]
      simp only [cont_dec b1 (hr _ (by simp)), cont_dec b2 (hr _ (by simp)), List.take_succ_cons, List.take_zero, all_2, val_2, dec3]
      by_cases hc : Cont b1 ∧ Cont b2
      · rw [if_pos hc, if_pos (by simp [hc])]
        unfold units; rw [if_neg (by simp), show (b % 16 * 4096 + b1 % 64 * 64 + b2 % 64) % 2 ^ 16 = b % 16 * 4096 + b1 % 64 * 64 + b2 % 64 by omega]
      · rw [if_neg hc, if_neg (by simpa [and_assoc] using hc)]
    | [], _ => simp
    | [_], _ => simp
  rw [if_neg h2]
  by_cases h1 : b ≥ 0xC0
  · rw [if_pos h1, if_neg (by omega), if_neg (by omega), need_1 (by omega)]
    match rest, hr with
    | b1 :: t, hr =>
      rw [if_neg (short_1 b1 t)]
      simp only [cont_dec b1 (hr _ (by simp)), List.take_succ_cons, List.take_zero, all_1, val_1, dec2]
      by_cases hc : Cont b1
      · rw [if_pos hc, if_pos (by simp [hc])]
        unfold units; rw [if_neg (by simp), show (b % 32 * 64 + b1 % 64) % 2 ^ 16 = b % 32 * 64 + b1 % 64 by omega]
      · rw [if_neg hc, if_neg (by simpa [and_assoc] using hc)]
    | [], _ => simp
  rw [if_neg h1]
  by_cases h0 : b ≥ 0x80
  · rw [if_pos h0, if_neg (by omega), if_pos (by omega)]
  · rw [if_neg h0, if_pos (by omega)]

theorem len_ind {P : List Nat → Prop} (h : ∀ l, (∀ l' : List Nat, l'.length < l.length → P l') → P l) (l : List Nat) : P l := by
  have key : ∀ k (l : List Nat), l.length < k → P l := by
    intro k
    induction k with
    | zero => intro l h; omega
    | succ k ih => intro l hk; exact h l fun l' h' => ih l' (by omega)
  exact key _ l (Nat.lt_succ_self _)

theorem need_lt {b : Nat} : need b ≤ 5 ∧ 1 ≤ need b := by unfold need; repeat' split
                                                          all_goals omega

theorem out32_scan (src : List Nat) : (∀ c ∈ src, c < 256) → out8 step8to32LE q src = (scan8 5 src).map Prod.snd := by
  induction src using len_ind with
  | h src ih =>
    intro hr
    cases src with
    | nil => simp [out8, scan8]
    | cons b rest =>
      have hr' : ∀ c ∈ rest, c < 256 := fun c h => hr c (by simp [h])
      have hd : ∀ k, ∀ c ∈ rest.drop k, c < 256 := fun k c h => hr' c (List.mem_of_mem_drop h)
      have i0 := ih rest (by simp) hr'
      rw [out8, scan8, step32_spec b rest hr', spec32]
      have n5 : ¬ 5 < need b := by have := (@need_lt b).1; omega
      by_cases h0 : b < 0x80
      · simp [h0, i0]
      · simp only [h0, if_false, n5, or_false]
        by_cases h1 : b < 0xC0 ∨ 0xFE ≤ b
        · simp [h1, q]; exact i0
        · simp only [h1, if_false]
          by_cases h2 : rest.length < need b
          · simp [h2, q]
          · simp only [h2, if_false]
            by_cases h3 : ∀ c ∈ rest.take (need b), Cont c
            · simp only [if_pos h3, List.map_cons, List.cons_append, List.nil_append]
              rw [ih _ (by simp; omega) (hd _)]
            · simp only [if_neg h3, List.map_cons, List.cons_append, List.nil_append, List.drop_zero, i0]; rfl

theorem out16_scan (src : List Nat) : (∀ c ∈ src, c < 256) → out8 step8to16LE q src = (scan8 3 src).flatMap units := by
  induction src using len_ind with
  | h src ih =>
    intro hr
    cases src with
    | nil => simp [out8, scan8]
    | cons b rest =>
      have hr' : ∀ c ∈ rest, c < 256 := fun c h => hr c (by simp [h])
      have hd : ∀ k, ∀ c ∈ rest.drop k, c < 256 := fun k c h => hr' c (List.mem_of_mem_drop h)
      have i0 := ih rest (by simp) hr'
      rw [out8, scan8, step16_spec b rest hr', spec16]
      have n3 : 3 < need b ↔ 0xF8 ≤ b := by unfold need; repeat' split
                                            all_goals omega
      have e : (b < 0xC0 ∨ 0xFE ≤ b ∨ 3 < need b) ↔ (b < 0xC0 ∨ 0xF8 ≤ b) := by omega
      have u0 : ∀ x, units (0, x) = [x] := fun x => rfl
      by_cases h0 : b < 0x80
      · simp [h0, i0, u0]
      · simp only [h0, if_false, e]
        by_cases h1 : b < 0xC0 ∨ 0xF8 ≤ b
        · simp [h1, q, u0]; exact i0
        · simp only [h1, if_false]
          by_cases h2 : rest.length < need b
          · simp [h2, q, u0]
          · simp only [h2, if_false]
            by_cases h3 : ∀ c ∈ rest.take (need b), Cont c
            · simp only [if_pos h3, List.flatMap_cons]
              rw [ih _ (by simp; omega) (hd _)]
            · simp only [if_neg h3, List.flatMap_cons, u0, List.cons_append, List.nil_append, List.drop_zero, i0]; rfl

/-! ## The reference -/

/-- the shape of a well-formed character -/
theorem utf8_shape (n : Nat) (hn : Scalar n) : ∃ b cs, utf8 n = b :: cs ∧ ((b < 0x80 ∧ cs = [] ∧ n = b) ∨
    (0xC0 ≤ b ∧ b < 0xF8 ∧ cs.length = need b ∧ (∀ c ∈ cs, Cont c) ∧ val b cs = n)) := by
  have := hn.1
  unfold utf8
  split
  · exact ⟨n, [], rfl, .inl ⟨by omega, rfl, rfl⟩⟩
  · split
    · refine ⟨_, _, rfl, .inr ⟨by omega, by omega, ?_, ?_, ?_⟩⟩
      · rw [need_1 (by omega)]; rfl
      · simp [Cont]; omega
      · rw [val_1]; omega
    · split
      · refine ⟨_, _, rfl, .inr ⟨by omega, by omega, ?_, ?_, ?_⟩⟩
        · rw [need_2 (by omega) (by omega)]; rfl
        · simp [Cont]; omega
        · rw [val_2]; omega
      · refine ⟨_, _, rfl, .inr ⟨by omega, by omega, ?_, ?_, ?_⟩⟩
        · rw [need_3 (by omega) (by omega)]; rfl
        · simp [Cont]; omega
        · rw [val_3]; omega

/-- what starts with a well-formed character that is not ASCII -/
theorem starts (n b : Nat) (rest : List Nat) (hn : Scalar n) (hp : utf8 n <+: b :: rest) (hb : 0x80 ≤ b) :
    0xC0 ≤ b ∧ b < 0xF8 ∧ need b ≤ rest.length ∧ (∀ c ∈ rest.take (need b), Cont c) ∧ val b (rest.take (need b)) = n ∧ utf8 n = b :: rest.take (need b) := by
  obtain ⟨b', cs, e, h⟩ := utf8_shape n hn
  obtain ⟨t, ht⟩ := hp
  rw [e, List.cons_append] at ht
  obtain ⟨rfl, rfl⟩ := List.cons.inj ht
  rcases h with ⟨h, -⟩ | ⟨h1, h2, h3, h4, h5⟩
  · omega
  · have tk : (cs ++ t).take (need b') = cs := by rw [← h3]; simp
    refine ⟨h1, h2, by simp; omega, by rw [tk]; exact h4, by rw [tk]; exact h5, by rw [tk]; exact e⟩

theorem utf8_ne (n : Nat) : utf8 n ≠ [] := by unfold utf8; repeat' split
                                              all_goals simp

theorem utf8_ascii (b : Nat) (h : b < 0x80) : Scalar b ∧ utf8 b = [b] := ⟨⟨by omega, by omega⟩, by unfold utf8; rw [if_pos h]⟩

/-- two characters at the same place are the same -/
theorem utf8_unique (n m : Nat) (l : List Nat) (hn : Scalar n) (hm : Scalar m) (h1 : utf8 n <+: l) (h2 : utf8 m <+: l) : n = m := by
  cases l with
  | nil => exact absurd (List.prefix_nil.1 h1) (utf8_ne n)
  | cons b rest =>
    by_cases hb : 0x80 ≤ b
    · obtain ⟨-, -, -, -, e1, -⟩ := starts n b rest hn h1 hb
      obtain ⟨-, -, -, -, e2, -⟩ := starts m b rest hm h2 hb
      omega
    · have : ∀ k, Scalar k → utf8 k <+: b :: rest → k = b := by
        intro k hk hp
        obtain ⟨b', cs, e, h⟩ := utf8_shape k hk
        obtain ⟨t, ht⟩ := hp
        rw [e] at ht
        obtain ⟨rfl, rfl⟩ := List.cons.inj ht
        rcases h with ⟨_, _, h⟩ | ⟨h1, _⟩
        · exact h
        · omega
      rw [this n hn h1, this m hm h2]

theorem ref_char {l out : List Nat} (h : Ref8 l out) (n : Nat) (hn : Scalar n) (bs : List Nat) (e : l = utf8 n ++ bs) : ∃ out', out = n :: out' ∧ Ref8 bs out' := by
  cases h with
  | nil => exact absurd (List.append_eq_nil_iff.1 e.symm).1 (utf8_ne n)
  | char m bs' out' hm hs =>
    have : m = n := utf8_unique m n _ hm hn (List.prefix_append _ bs') (by rw [e]; exact List.prefix_append _ _)
    subst this
    exact ⟨out', rfl, List.append_cancel_left e ▸ hs⟩
  | bad b bs' out' hb hs => exact absurd (e ▸ List.prefix_append _ _) (hb n hn)

theorem ref_bad {b : Nat} {rest out : List Nat} (h : Ref8 (b :: rest) out) (hb : ∀ n, Scalar n → ¬ utf8 n <+: b :: rest) : ∃ out', out = 0x3F :: out' ∧ Ref8 rest out' := by
  generalize e : b :: rest = l at h
  cases h with
  | nil => cases e
  | char m bs' out' hm hs => exact absurd (e ▸ List.prefix_append _ _) (hb m hm)
  | bad b' bs' out' hb' hs => obtain ⟨rfl, rfl⟩ := List.cons.inj e; exact ⟨out', rfl, hs⟩

/-- every text has exactly one reference decoding -/
theorem ref8_unique (l : List Nat) : ∃ out, Ref8 l out ∧ ∀ out', Ref8 l out' → out' = out := by
  induction l using len_ind with
  | h l ih =>
    cases l with
    | nil => exact ⟨[], .nil, fun out' h => by
        generalize e : ([] : List Nat) = l at h
        cases h with
        | nil => rfl
        | char m bs' out' hm hs => exact absurd (List.append_eq_nil_iff.1 e.symm).1 (utf8_ne m)
        | bad => cases e⟩
    | cons b rest =>
      by_cases h : ∃ n, Scalar n ∧ utf8 n <+: b :: rest
      · obtain ⟨n, hn, bs, e⟩ := h
        have hl : bs.length < (b :: rest).length := by
          rw [← e, List.length_append]
          have := List.length_pos_iff.2 (utf8_ne n)
          omega
        obtain ⟨out, h1, h2⟩ := ih bs hl
        rw [← e]
        refine ⟨n :: out, .char n bs out hn h1, fun out' h => ?_⟩
        obtain ⟨o, rfl, ho⟩ := ref_char h n hn bs rfl
        rw [h2 o ho]
      · have hb : ∀ n, Scalar n → ¬ utf8 n <+: b :: rest := fun n h1 h2 => h ⟨n, h1, h2⟩
        obtain ⟨out, h1, h2⟩ := ih rest (by simp)
        refine ⟨0x3F :: out, .bad b rest out hb h1, fun out' h => ?_⟩
        obtain ⟨o, rfl, ho⟩ := ref_bad h hb
        rw [h2 o ho]

theorem ref_nonempty {l out : List Nat} (h : Ref8 l out) : out = [] ↔ l = [] := by
  cases h with
  | nil => simp
  | char m bs' out' hm hs => simp [utf8_ne]
  | bad => simp

theorem no_start_cont {c : Nat} (hc : Cont c) (l : List Nat) : ∀ n, Scalar n → ¬ utf8 n <+: c :: l := by
  intro n hn hp
  have := starts n c l hn hp hc.1
  unfold Cont at hc; omega

theorem ref_conts (cs : List Nat) (hc : ∀ c ∈ cs, Cont c) : ∀ {t out : List Nat}, Ref8 (cs ++ t) out → ∃ out', out = List.replicate cs.length 0x3F ++ out' ∧ Ref8 t out' := by
  induction cs with
  | nil => intro t out h; exact ⟨out, rfl, h⟩
  | cons c cs ih =>
    intro t out h
    obtain ⟨o, rfl, ho⟩ := ref_bad h (no_start_cont (hc c (by simp)) _)
    obtain ⟨o', rfl, ho'⟩ := ih (fun c h => hc c (by simp [h])) ho
    exact ⟨o', rfl, ho'⟩

/-! ## When is it right? -/

/-- Both targets at once: `emit` writes the forms found, `enc` the characters of the reference. -/
theorem scan_iff (m : Nat) (hm : 3 ≤ m) (emit : Nat × Nat → List Nat) (enc : Nat → List Nat) (h0 : ∀ x, x < 0x80 → emit (0, x) = enc x ∧ (enc x).length = 1)
    (h1 : ∀ b cs, 0xC0 ≤ b → Scalar (val b cs) → utf8 (val b cs) = b :: cs → emit (cs.length, val b cs) = enc (val b cs))
    (h2 : ∀ k n, 1 ≤ k → k ≤ m → (emit (k, n)).length ≤ k) (h3 : ∀ x, enc x ≠ []) (src : List Nat) : ∀ out, Ref8 src out →
    ((scan8 m src).flatMap emit = out.flatMap enc ↔ Sound8 m src) ∧ ((scan8 m src).flatMap emit).length ≤ (out.flatMap enc).length := by
  have hq := h0 0x3F (by omega)
  induction src using len_ind with
  | h src ih =>
    intro out hout
    cases src with
    | nil =>
      have := (ref_nonempty hout).2 rfl
      subst this
      simp [scan8, Sound8]
    | cons b rest =>
      -- a byte that gives '?' in both
      have both : (∀ n, Scalar n → ¬ utf8 n <+: b :: rest) → scan8 m (b :: rest) = (0, 0x3F) :: scan8 m rest → (Sound8 m (b :: rest) ↔ Sound8 m rest) →
          ((scan8 m (b :: rest)).flatMap emit = out.flatMap enc ↔ Sound8 m (b :: rest)) ∧ ((scan8 m (b :: rest)).flatMap emit).length ≤ (out.flatMap enc).length := by
        intro hb e1 e2
        obtain ⟨o, rfl, ho⟩ := ref_bad hout hb
        obtain ⟨i1, i2⟩ := ih rest (by simp) o ho
        rw [e1, e2, List.flatMap_cons, List.flatMap_cons, hq.1, List.append_cancel_left_eq]
        exact ⟨i1, by simp only [List.length_append]; omega⟩
      by_cases ha : b < 0x80
      · have hs : scan8 m (b :: rest) = (0, b) :: scan8 m rest := by rw [scan8, if_pos ha]
        have hS : Sound8 m (b :: rest) ↔ Sound8 m rest := by rw [Sound8, if_pos (by omega)]
        obtain ⟨h1', h2'⟩ := utf8_ascii b ha
        obtain ⟨o, rfl, ho⟩ := ref_char hout b h1' rest (by rw [h2']; rfl)
        obtain ⟨i1, i2⟩ := ih rest (by simp) o ho
        rw [hs, hS, List.flatMap_cons, List.flatMap_cons, (h0 b ha).1, List.append_cancel_left_eq]
        exact ⟨i1, by simp only [List.length_append]; omega⟩
      · by_cases hst : b < 0xC0 ∨ 0xFE ≤ b ∨ m < need b
        · apply both
          · intro n hn hp
            obtain ⟨h1', h2', -⟩ := starts n b rest hn hp (by omega)
            have : need b ≤ 3 := by unfold need; repeat' split
                                    all_goals omega
            omega
          · rw [scan8, if_neg ha, if_pos hst]
          · rw [Sound8, if_pos hst]
        · by_cases hsh : rest.length < need b
          · have hb : ∀ n, Scalar n → ¬ utf8 n <+: b :: rest := by
              intro n hn hp
              have := (starts n b rest hn hp (by omega)).2.2.1
              omega
            obtain ⟨o, rfl, ho⟩ := ref_bad hout hb
            rw [scan8, if_neg ha, if_neg hst, if_pos hsh, Sound8, if_neg hst, if_pos hsh, ← ref_nonempty ho]
            simp only [List.flatMap_cons, List.flatMap_nil, List.append_nil, hq.1, List.length_append]
            refine ⟨⟨fun h => ?_, fun h => by subst h; simp⟩, by omega⟩
            have hl := congrArg List.length h
            rw [List.length_append] at hl
            cases o with
            | nil => rfl
            | cons x o =>
              exfalso
              have := List.length_pos_iff.2 (h3 x)
              simp only [List.flatMap_cons, List.length_append] at hl
              omega
          · by_cases hall : ∀ c ∈ rest.take (need b), Cont c
            · have hlen : (rest.take (need b)).length = need b := by simp; omega
              have hsp : rest.take (need b) ++ rest.drop (need b) = rest := List.take_append_drop _ _
              have hs : scan8 m (b :: rest) = (need b, val b (rest.take (need b))) :: scan8 m (rest.drop (need b)) := by
                rw [scan8, if_neg ha, if_neg hst, if_neg hsh, if_pos hall]
              have hS : Sound8 m (b :: rest) ↔ (Scalar (val b (rest.take (need b))) ∧ utf8 (val b (rest.take (need b))) = b :: rest.take (need b)) ∧ Sound8 m (rest.drop (need b)) := by
                rw [Sound8, if_neg hst, if_neg hsh, if_pos hall]
              rw [hs, hS, List.flatMap_cons]
              by_cases hg : Scalar (val b (rest.take (need b))) ∧ utf8 (val b (rest.take (need b))) = b :: rest.take (need b)
              · obtain ⟨o, rfl, ho⟩ := ref_char hout _ hg.1 (rest.drop (need b)) (by rw [hg.2, List.cons_append, hsp])
                obtain ⟨i1, i2⟩ := ih (rest.drop (need b)) (by simp; omega) o ho
                have e := h1 b (rest.take (need b)) (by omega) hg.1 hg.2
                rw [hlen] at e
                rw [e, List.flatMap_cons, List.append_cancel_left_eq]
                exact ⟨⟨fun h => ⟨hg, i1.1 h⟩, fun h => i1.2 h.2⟩, by simp only [List.length_append]; omega⟩
              · have hb : ∀ n, Scalar n → ¬ utf8 n <+: b :: rest := by
                  intro n hn hp
                  obtain ⟨-, -, -, -, e1, e2⟩ := starts n b rest hn hp (by omega)
                  rw [e1] at hg
                  exact hg ⟨hn, e2⟩
                obtain ⟨o, rfl, ho⟩ := ref_bad hout hb
                rw [← hsp] at ho
                obtain ⟨o', rfl, ho'⟩ := ref_conts _ hall ho
                obtain ⟨i1, i2⟩ := ih (rest.drop (need b)) (by simp; omega) o' ho'
                have hl := h2 (need b) (val b (rest.take (need b))) need_lt.2 (by omega)
                have hrep : ∀ k, ((List.replicate k 0x3F).flatMap enc).length = k := by
                  intro k
                  induction k with
                  | zero => rfl
                  | succ k ihk => rw [List.replicate_succ, List.flatMap_cons, List.length_append, ihk, hq.2]; omega
                have hlt : (emit (need b, val b (rest.take (need b))) ++ (scan8 m (rest.drop (need b))).flatMap emit).length <
                    ((0x3F :: (List.replicate (rest.take (need b)).length 0x3F ++ o')).flatMap enc).length := by
                  rw [List.flatMap_cons, List.flatMap_append]
                  simp only [List.length_append, hrep, hq.2, hlen]
                  omega
                exact ⟨⟨fun h => by rw [h] at hlt; omega, fun h => absurd h.1 hg⟩, by omega⟩
            · apply both
              · intro n hn hp
                exact hall (starts n b rest hn hp (by omega)).2.2.2.1
              · rw [scan8, if_neg ha, if_neg hst, if_neg hsh, if_neg hall]
              · rw [Sound8, if_neg hst, if_neg hsh, if_neg hall]

theorem flat_one {α : Type} (f : α → Nat) (l : List α) : l.flatMap (fun x => [f x]) = l.map f := by
  induction l with
  | nil => rfl
  | cons x l ih => rw [List.flatMap_cons, ih]; rfl

theorem ref_scalar {l out : List Nat} (h : Ref8 l out) : ∀ n ∈ out, Scalar n := by
  induction h with
  | nil => simp
  | char n bs out h hs ih => intro m hm; rcases List.mem_cons.1 hm with rfl | hm; exact h; exact ih m hm
  | bad b bs out h hs ih => intro m hm; rcases List.mem_cons.1 hm with rfl | hm; exact ⟨by omega, by omega⟩; exact ih m hm

/-- C07: the result of the conversions from UTF-8, for every sequence of bytes. -/
theorem C07_utf8_exact (g : Grow) (hg : Good g) (ht : Total g) (src : List Nat) (hs : ∀ c ∈ src, c < 256) (d : Dst) (hd : d.buf.length ≤ d.cap) :
    (∃ c, u8to32LE g src d = .ok ⟨d.buf ++ (scan8 5 src).map Prod.snd, c⟩) ∧ (∃ c, u8to16LE g src d = .ok ⟨d.buf ++ (scan8 3 src).flatMap units, c⟩) ∧
    (∃ c, u8to16BE g src d = .ok ⟨d.buf ++ ((scan8 3 src).flatMap units).map rev16, c⟩) := by
  refine ⟨?_, ?_, ?_⟩
  · have := (conv8_ok _ q bound8to32LE g hg src d hd).ok ht
    rwa [out32_scan src hs] at this
  · have := (conv8_ok _ q bound8to16LE g hg src d hd).ok ht
    rwa [out16_scan src hs] at this
  · have := (conv8_ok _ (swap16 q) bound8to16BE g hg src d hd).ok ht
    rwa [out8_16BE, out16_scan src hs, map_swap16] at this

/-- C07: every text has exactly one reference decoding, made of scalar values; the conversions to UTF-32 and UTF-16 give it exactly for the texts in `Sound8`. -/
theorem C07_utf8_iff (g : Grow) (hg : Good g) (ht : Total g) (src : List Nat) (hs : ∀ c ∈ src, c < 256) (d : Dst) (hd : d.buf.length ≤ d.cap) :
    ∃ out, Ref8 src out ∧ (∀ out', Ref8 src out' → out' = out) ∧ (∀ n ∈ out, Scalar n) ∧
      ((∃ c, u8to32LE g src d = .ok ⟨d.buf ++ out, c⟩) ↔ Sound8 5 src) ∧ ((∃ c, u8to16LE g src d = .ok ⟨d.buf ++ utf16s out, c⟩) ↔ Sound8 3 src) := by
  obtain ⟨out, hr, hu⟩ := ref8_unique src
  refine ⟨out, hr, hu, ref_scalar hr, ?_, ?_⟩
  · obtain ⟨e, -, -⟩ := C07_utf8_exact g hg ht src hs d hd
    rw [ok_iff e]
    have := (scan_iff 5 (by omega) (fun t => [t.2]) (fun n => [n]) (fun x _ => ⟨rfl, rfl⟩) (fun _ _ _ _ _ => rfl) (fun k n h _ => h) (fun x => by simp) src out hr).1
    rwa [flat_one, flat_one, List.map_id''] at this
    exact fun _ => rfl
  · obtain ⟨-, e, -⟩ := C07_utf8_exact g hg ht src hs d hd
    rw [ok_iff e]
    refine (scan_iff 3 (by omega) units utf16 ?_ ?_ ?_ ?_ src out hr).1
    · intro x hx
      have : utf16 x = [x] := by unfold utf16; rw [if_pos (by omega)]
      rw [this]; exact ⟨rfl, rfl⟩
    · intro b cs hb hsc he
      obtain ⟨b', cs', e1, h⟩ := utf8_shape _ hsc
      rw [he] at e1
      obtain ⟨rfl, rfl⟩ := List.cons.inj e1
      have hn : (val b cs < 0x10000 ∧ cs.length ≠ 3) ∨ (0x10000 ≤ val b cs ∧ val b cs < 0x110000 ∧ cs.length = 3) := by
        have hl := congrArg List.length he
        have := hsc.1
        unfold utf8 at hl
        (repeat' split at hl) <;> simp only [List.length_cons, List.length_nil] at hl <;> omega
      unfold units utf16
      rcases hn with ⟨h1, h2⟩ | ⟨h1, h2, h3⟩
      · rw [if_neg h2, if_pos h1]
      · rw [if_pos h3, if_neg (by omega)]
        simp only
        rw [show 0xD7C0 + val b cs / 1024 = 0xD800 + (val b cs - 0x10000) / 1024 by omega, show val b cs % 1024 = (val b cs - 0x10000) % 1024 by omega]
    · intro k n h1 h2
      unfold units
      split
      · rename_i h; simp only at h; subst h; simp
      · simpa using h1
    · intro x; unfold utf16; split <;> simp

/-- C07 fails for every text followed by the beginning of a character and more: what follows the cut character is lost. -/
theorem C07_cut_fails (g : Grow) (hg : Good g) (ht : Total g) (l rest : List Nat) (b : Nat) (hl : ∀ n ∈ l, Scalar n) (hb : 0xC0 ≤ b ∧ b < 0xFE)
    (hr : ∀ c ∈ rest, c < 256) (hn : rest.length < need b) (d : Dst) (hd : d.buf.length ≤ d.cap) :
    ∃ c, u8to32LE g (utf8s l ++ b :: rest) d = .ok ⟨d.buf ++ (l ++ [0x3F]), c⟩ := by
  have := (conv8_ok _ q bound8to32LE g hg (utf8s l ++ b :: rest) d hd).ok ht
  have e : out8 step8to32LE q (utf8s l ++ b :: rest) = l ++ [0x3F] := by
    clear this
    induction l with
    | nil =>
      rw [show utf8s [] ++ b :: rest = b :: rest from rfl, out8, step32_spec b rest hr, spec32, if_neg (by omega), if_neg (by omega), if_pos hn]
      rfl
    | cons n l ih =>
      have h1 := (hl n (by simp)).1
      rw [utf8s_cons, List.append_assoc, ← enc8_spec n (by omega), out8_32_enc q n (by omega), ih fun m h => hl m (by simp [h])]; rfl
  rwa [e] at this

/-- non-vacuity: broken forms of every length followed by good characters; "A", a cut character and "BC" -/
theorem C07_utf8_example : Sound8 5 [0xE4, 0xBD, 0x41, 0xFF, 0x80, 0xF0, 0x9F, 0x98, 0x80, 0xFC, 0x80, 0x80, 0x80, 0x80, 0x41, 0xC3] ∧ Sound8 3 [0xFC, 0x41] ∧
    ¬ Sound8 5 [0xFC, 0x41] ∧ ¬ Sound8 3 [0xC0, 0x80] ∧ ¬ Sound8 3 [0xED, 0xA0, 0x80] ∧
    ∃ c, u8to32LE codeGrow [0x41, 0xF0, 0x42, 0x43] ⟨[], 0⟩ = .ok ⟨[0x41, 0x3F], c⟩ := by
  refine ⟨?_, ?_, ?_, ?_, ?_, ?_⟩
  · simp [Sound8, need, Cont, val, utf8, Scalar]
  · simp [Sound8, need]
  · simp [Sound8, need]
  · simp [Sound8, need, Cont, val, utf8]
  · simp [Sound8, need, Cont, val, utf8, Scalar]
  · obtain ⟨c, h⟩ := C07_cut_fails codeGrow codeGrow_good codeGrow_total [0x41] [0x42, 0x43] 0xF0 (by intro n hn; simp at hn; subst hn; unfold Scalar; omega) (by omega)
      (by intro c hc; simp at hc; omega) (by decide) ⟨[], 0⟩ (Nat.le_refl _)
    exact ⟨c, h⟩

#print axioms C07_utf16_exact
#print axioms C07_utf16_iff
#print axioms C03_exact
#print axioms C03_iff
#print axioms C07_utf8_exact
#print axioms C07_utf8_iff
#print axioms C07_cut_fails
end Verif.Utf
