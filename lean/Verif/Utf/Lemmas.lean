import Verif.Utf.Model
import Verif.Utf.Spec
namespace Verif.Utf

/-! ## bit operations as arithmetic -/
theorem join (i x y : Nat) (h : y < 2 ^ i) : x <<< i ||| y = x * 2 ^ i + y := by
  rw [← Nat.shiftLeft_add_eq_or_of_lt h, Nat.shiftLeft_eq]

theorem or80 (x : Nat) (h : x < 64) : x ||| 0x80 = 0x80 + x := by rw [Nat.or_comm]; exact join 6 2 x h
theorem orC0 (x : Nat) (h : x < 32) : x ||| 0xC0 = 0xC0 + x := by rw [Nat.or_comm]; exact join 5 6 x h
theorem orE0 (x : Nat) (h : x < 16) : x ||| 0xE0 = 0xE0 + x := by rw [Nat.or_comm]; exact join 4 14 x h
theorem orF0 (x : Nat) (h : x < 8) : x ||| 0xF0 = 0xF0 + x := by rw [Nat.or_comm]; exact join 3 30 x h
theorem orF8 (x : Nat) (h : x < 4) : x ||| 0xF8 = 0xF8 + x := by rw [Nat.or_comm]; exact join 2 62 x h
theorem orFC (x : Nat) (h : x < 2) : x ||| 0xFC = 0xFC + x := by rw [Nat.or_comm]; exact join 1 126 x h

theorem and1 (x : Nat) : x &&& 0x1 = x % 2 := Nat.and_two_pow_sub_one_eq_mod x 1
theorem and3 (x : Nat) : x &&& 0x3 = x % 4 := Nat.and_two_pow_sub_one_eq_mod x 2
theorem and7 (x : Nat) : x &&& 0x7 = x % 8 := Nat.and_two_pow_sub_one_eq_mod x 3
theorem andF (x : Nat) : x &&& 0xF = x % 16 := Nat.and_two_pow_sub_one_eq_mod x 4
theorem and1F (x : Nat) : x &&& 0x1F = x % 32 := Nat.and_two_pow_sub_one_eq_mod x 5
theorem and3F (x : Nat) : x &&& 0x3F = x % 64 := Nat.and_two_pow_sub_one_eq_mod x 6
theorem andFF (x : Nat) : x &&& 0xFF = x % 256 := Nat.and_two_pow_sub_one_eq_mod x 8
theorem and3FF (x : Nat) : x &&& 0x3FF = x % 1024 := Nat.and_two_pow_sub_one_eq_mod x 10

theorem shr0 (x : Nat) : x >>> 0 = x := rfl
theorem shr6 (x : Nat) : x >>> 6 = x / 64 := Nat.shiftRight_eq_div_pow x 6
theorem shr8 (x : Nat) : x >>> 8 = x / 256 := Nat.shiftRight_eq_div_pow x 8
theorem shr10 (x : Nat) : x >>> 10 = x / 1024 := Nat.shiftRight_eq_div_pow x 10
theorem shr12 (x : Nat) : x >>> 12 = x / 4096 := Nat.shiftRight_eq_div_pow x 12
theorem shr16 (x : Nat) : x >>> 16 = x / 65536 := Nat.shiftRight_eq_div_pow x 16
theorem shr18 (x : Nat) : x >>> 18 = x / 262144 := Nat.shiftRight_eq_div_pow x 18
theorem shr24 (x : Nat) : x >>> 24 = x / 16777216 := Nat.shiftRight_eq_div_pow x 24
theorem shr30 (x : Nat) : x >>> 30 = x / 1073741824 := Nat.shiftRight_eq_div_pow x 30

theorem cont_iff (b : Nat) (h : b < 256) : cont b = true ↔ 0x80 ≤ b ∧ b < 0xC0 := by
  have : ∀ b < 256, cont b = true ↔ 0x80 ≤ b ∧ b < 0xC0 := by decide +kernel
  exact this b h

theorem dec2 (a b : Nat) : ((a &&& 0x1F) <<< 6) ||| ((b &&& 0x3F) <<< 0) = a % 32 * 64 + b % 64 := by
  rw [and1F, and3F, Nat.shiftLeft_zero, join 6 _ _ (by omega)]

theorem dec3 (a b c : Nat) : ((a &&& 0xF) <<< 12) ||| ((b &&& 0x3F) <<< 6) ||| ((c &&& 0x3F) <<< 0) = a % 16 * 4096 + b % 64 * 64 + c % 64 := by
  rw [andF, and3F, and3F, Nat.shiftLeft_zero, Nat.or_assoc, join 6 _ _ (by omega), join 12 _ _ (by omega)]; omega

theorem dec4 (a b c d : Nat) : ((a &&& 0x7) <<< 18) ||| ((b &&& 0x3F) <<< 12) ||| ((c &&& 0x3F) <<< 6) ||| ((d &&& 0x3F) <<< 0)
    = a % 8 * 262144 + b % 64 * 4096 + c % 64 * 64 + d % 64 := by
  rw [and7, and3F, and3F, and3F, Nat.shiftLeft_zero, Nat.or_assoc, Nat.or_assoc, join 6 _ _ (by omega), join 12 _ _ (by omega), join 18 _ _ (by omega)]; omega

theorem dec5 (a b c d e : Nat) : ((a &&& 0x3) <<< 24) ||| ((b &&& 0x3F) <<< 18) ||| ((c &&& 0x3F) <<< 12) ||| ((d &&& 0x3F) <<< 6) ||| ((e &&& 0x3F) <<< 0)
    = a % 4 * 16777216 + b % 64 * 262144 + c % 64 * 4096 + d % 64 * 64 + e % 64 := by
  rw [and3, and3F, and3F, and3F, and3F, Nat.shiftLeft_zero, Nat.or_assoc, Nat.or_assoc, Nat.or_assoc, join 6 _ _ (by omega), join 12 _ _ (by omega), join 18 _ _ (by omega),
    join 24 _ _ (by omega)]; omega

theorem swap16_eq (x : Nat) : swap16 x = Spec.rev16 x := by
  unfold swap16 Spec.rev16
  rw [andFF, andFF, shr8, join 8 _ _ (by omega)]

theorem swap32_eq (x : Nat) : swap32 x = Spec.rev32 x := by
  unfold swap32 Spec.rev32
  rw [andFF, andFF, andFF, andFF, shr8, shr16, shr24, Nat.or_assoc, Nat.or_assoc, join 8 _ _ (by omega), join 16 _ _ (by omega), join 24 _ _ (by omega)]; omega

theorem rev16_bytes (a b : Nat) (ha : a < 256) (hb : b < 256) : Spec.rev16 (a * 256 + b) = b * 256 + a := by
  unfold Spec.rev16
  rw [show (a * 256 + b) % 256 = b by omega, show (a * 256 + b) / 256 % 256 = a by omega]

theorem rev32_bytes (a b c d : Nat) (ha : a < 256) (hb : b < 256) (hc : c < 256) (hd : d < 256) :
    Spec.rev32 (a * 16777216 + b * 65536 + c * 256 + d) = d * 16777216 + c * 65536 + b * 256 + a := by
  unfold Spec.rev32
  rw [show (a * 16777216 + b * 65536 + c * 256 + d) % 256 = d by omega, show (a * 16777216 + b * 65536 + c * 256 + d) / 256 % 256 = c by omega,
    show (a * 16777216 + b * 65536 + c * 256 + d) / 65536 % 256 = b by omega, show (a * 16777216 + b * 65536 + c * 256 + d) / 16777216 % 256 = a by omega]

theorem rev16_rev16 (x : Nat) (h : x < 65536) : Spec.rev16 (Spec.rev16 x) = x := by
  have := rev16_bytes (x % 256) (x / 256 % 256) (by omega) (by omega)
  rw [show Spec.rev16 x = x % 256 * 256 + x / 256 % 256 from rfl, this]; omega
theorem rev32_rev32 (x : Nat) (h : x < 4294967296) : Spec.rev32 (Spec.rev32 x) = x := by
  have := rev32_bytes (x % 256) (x / 256 % 256) (x / 65536 % 256) (x / 16777216 % 256) (by omega) (by omega) (by omega) (by omega)
  rw [show Spec.rev32 x = x % 256 * 16777216 + x / 256 % 256 * 65536 + x / 65536 % 256 * 256 + x / 16777216 % 256 from rfl, this]; omega
theorem rev16_lt (x : Nat) : Spec.rev16 x < 65536 := by unfold Spec.rev16; omega
theorem rev32_lt (x : Nat) : Spec.rev32 x < 4294967296 := by unfold Spec.rev32; omega

theorem pair_eq (a b : Nat) (hb : b < 1024) : (a <<< 10) ||| b = a * 1024 + b := join 10 a b hb

/-! ## the loops as pure functions -/
def out8 (step : Nat → List Nat → Option (List Nat × Nat)) (tail : Nat) : List Nat → List Nat
  | [] => []
  | ch :: rest =>
    match step ch rest with
    | none => [tail]
    | some (o, k) => o ++ out8 step tail (rest.drop k)
termination_by l => l.length
decreasing_by simp [List.length_drop]; omega

def out16 (step : Nat → Nat → List Nat × Nat) (tail last : Nat) : List Nat → List Nat
  | [] => if last ≠ 0 then [tail] else []
  | ch :: src => (step last ch).1 ++ out16 step tail (step last ch).2 src

theorem puts_ok (d : Dst) (l : List Nat) (h : d.buf.length + l.length ≤ d.cap) : puts d l = some ⟨d.buf ++ l, d.cap⟩ := by
  induction l generalizing d with
  | nil => simp [puts]
  | cons c l ih =>
    simp only [List.length_cons] at h
    rw [puts, put, if_pos (by omega)]
    simp only [Option.bind_some]
    rw [ih _ (by simp; omega)]
    simp

theorem lock_cases (g : Grow) (hg : Good g) (d : Dst) (n : Nat) :
    (lock g d n = none ∧ ¬ Total g) ∨ ∃ c, lock g d n = some ⟨d.buf, c⟩ ∧ n ≤ c := by
  unfold lock
  by_cases h : n ≤ d.cap
  · right; exact ⟨d.cap, by simp [h], h⟩
  · simp only [h, if_false]
    cases hc : g d.cap n with
    | none => left; exact ⟨rfl, fun ht => by obtain ⟨c, hc'⟩ := ht d.cap n; rw [hc] at hc'; cases hc'⟩
    | some c => right; exact ⟨c, rfl, hg _ _ _ hc⟩

theorem loop8_ok (step) (tail : Nat) (hs : ∀ ch rest o k, step ch rest = some (o, k) → o.length ≤ k + 1 ∧ k ≤ rest.length) :
    ∀ (n : Nat) (src : List Nat) (d : Dst), src.length ≤ n → d.buf.length + src.length ≤ d.cap →
      loop8 step tail d src = some ⟨d.buf ++ out8 step tail src, d.cap⟩ ∧ (out8 step tail src).length ≤ src.length := by
  intro n
  induction n with
  | zero =>
    intro src d h h'
    have : src = [] := by cases src; rfl; simp at h
    subst this; simp [loop8, out8]
  | succ n ih =>
    intro src d h h'
    cases src with
    | nil => simp [loop8, out8]
    | cons ch rest =>
      simp only [List.length_cons] at h h'
      rw [loop8, out8]
      cases hstep : step ch rest with
      | none => simp [put, show d.buf.length < d.cap by omega]
      | some p =>
        obtain ⟨o, k⟩ := p
        obtain ⟨h1, h2⟩ := hs _ _ _ _ hstep
        simp only []
        rw [puts_ok _ _ (by omega)]
        simp only [Option.bind_some]
        obtain ⟨e1, e2⟩ := ih (rest.drop k) ⟨d.buf ++ o, d.cap⟩ (by simp; omega) (by simp; omega)
        rw [e1]
        simp at e2 ⊢; omega

/-- pending units -/
def debt (last : Nat) : Nat := if last ≠ 0 then 1 else 0

theorem loop16_ok (step) (tail : Nat) (hs : ∀ last ch, (step last ch).1.length + debt (step last ch).2 ≤ 1 + debt last) :
    ∀ (src : List Nat) (d : Dst) (last : Nat), d.buf.length + src.length + debt last ≤ d.cap →
      loop16 step tail d last src = some ⟨d.buf ++ out16 step tail last src, d.cap⟩ ∧ (out16 step tail last src).length ≤ src.length + debt last := by
  intro src
  induction src with
  | nil =>
    intro d last h
    unfold loop16 out16 debt at *
    by_cases h0 : last = 0
    · simp [h0]
    · simp [h0] at h ⊢; simp [put]; omega
  | cons ch src ih =>
    intro d last h
    simp only [List.length_cons] at h
    have h1 := hs last ch
    rw [loop16, out16, puts_ok _ _ (by omega)]
    simp only [Option.bind_some]
    obtain ⟨e1, e2⟩ := ih ⟨d.buf ++ (step last ch).1, d.cap⟩ (step last ch).2 (by simp; omega)
    rw [e1]
    simp; omega

theorem loop16g_ok (step) (room tail : Nat) (g : Grow) (hg : Good g)
    (hs : ∀ last ch, (step last ch).1.length + debt (step last ch).2 ≤ room) :
    ∀ (src : List Nat) (d : Dst) (last : Nat), d.buf.length + debt last ≤ d.cap →
      (∃ c, loop16g step room tail g d last src = some (.inr ⟨d.buf ++ out16 step tail last src, c⟩) ∧ d.buf.length + (out16 step tail last src).length ≤ c) ∨
      (¬ Total g ∧ ∃ o c, loop16g step room tail g d last src = some (.inl ⟨d.buf ++ o, c⟩) ∧ (d.buf ++ o).length ≤ c) := by
  intro src
  induction src with
  | nil =>
    intro d last h
    left
    unfold loop16g out16 debt at *
    by_cases h0 : last = 0
    · simp [h0] at h ⊢; exact ⟨d.cap, rfl, h⟩
    · simp only [h0, ne_eq, not_false_eq_true, if_true] at h ⊢
      refine ⟨d.cap, ?_, ?_⟩
      · rw [put, if_pos (by omega)]; rfl
      · simp; omega
  | cons ch src ih =>
    intro d last h
    have h1 := hs last ch
    rw [loop16g, out16]
    have key : (if d.buf.length + room > d.cap then lock g d (d.buf.length + room) else some d) = none ∧ ¬ Total g ∨
        ∃ c, (if d.buf.length + room > d.cap then lock g d (d.buf.length + room) else some d) = some ⟨d.buf, c⟩ ∧ d.buf.length + room ≤ c := by
      by_cases hc : d.buf.length + room > d.cap
      · simp only [hc, if_true]; exact lock_cases g hg d _
      · simp only [hc, if_false]; right; exact ⟨d.cap, rfl, by omega⟩
    rcases key with ⟨k1, k2⟩ | ⟨c, k1, k2⟩
    · right
      rw [k1]
      refine ⟨k2, [], d.cap, ?_, ?_⟩
      · simp
      · simp; omega
    · rw [k1]
      simp only []
      rw [puts_ok _ _ (by simp only []; omega)]
      simp only [Option.bind_some]
      rcases ih ⟨d.buf ++ (step last ch).1, c⟩ (step last ch).2 (by simp; omega) with ⟨c', e1, e2⟩ | ⟨ht, o, c', e1, e2⟩
      · left
        refine ⟨c', ?_, ?_⟩
        · rw [e1]; simp
        · simp at e2 ⊢; omega
      · right
        refine ⟨ht, (step last ch).1 ++ o, c', ?_, ?_⟩
        · rw [e1]; simp
        · simpa using e2

/-! ## the frames -/

/-- outcome of a conversion that appends `o`: success, or (only if the allocator can fail) out of memory with a destination within its capacity -/
def Appends (g : Grow) (d : Dst) (o : List Nat) (r : Res) : Prop :=
  (∃ c, r = .ok ⟨d.buf ++ o, c⟩ ∧ (d.buf ++ o).length ≤ c) ∨ (¬ Total g ∧ ∃ d', r = .oom d' ∧ d'.buf.length ≤ d'.cap)

theorem conv8_ok (step) (tail : Nat) (hs : ∀ ch rest o k, step ch rest = some (o, k) → o.length ≤ k + 1 ∧ k ≤ rest.length)
    (g : Grow) (hg : Good g) (src : List Nat) (d : Dst) (hd : d.buf.length ≤ d.cap) :
    Appends g d (out8 step tail src) (conv8 step tail g src d) := by
  unfold conv8 Appends
  by_cases h0 : src = []
  · subst h0; left; exact ⟨d.cap, by simp [out8], by simpa [out8] using hd⟩
  · simp only [h0, if_false]
    rcases lock_cases g hg d (d.buf.length + src.length) with ⟨k1, k2⟩ | ⟨c, k1, k2⟩
    · right; rw [k1]; exact ⟨k2, d, rfl, hd⟩
    · left
      obtain ⟨e1, e2⟩ := loop8_ok step tail hs src.length src ⟨d.buf, c⟩ (Nat.le_refl _) k2
      rw [k1]; simp only []
      rw [e1]
      exact ⟨c, rfl, by simp; omega⟩

theorem conv16_ok (step) (tail : Nat) (hs : ∀ last ch, (step last ch).1.length + debt (step last ch).2 ≤ 1 + debt last)
    (g : Grow) (hg : Good g) (src : List Nat) (d : Dst) (hd : d.buf.length ≤ d.cap) :
    Appends g d (out16 step tail 0 src) (conv16 step tail g src d) := by
  unfold conv16 Appends
  by_cases h0 : src = []
  · subst h0; left; exact ⟨d.cap, by simp [out16], by simpa [out16] using hd⟩
  · simp only [h0, if_false]
    rcases lock_cases g hg d (d.buf.length + src.length) with ⟨k1, k2⟩ | ⟨c, k1, k2⟩
    · right; rw [k1]; exact ⟨k2, d, rfl, hd⟩
    · left
      obtain ⟨e1, e2⟩ := loop16_ok step tail hs src ⟨d.buf, c⟩ 0 (by simpa [debt] using k2)
      rw [k1]; simp only []
      rw [e1]
      refine ⟨c, rfl, ?_⟩
      simp [debt] at e2 ⊢; omega

theorem convG_ok (step) (room factor : Nat) (restore : Bool) (hs : ∀ last ch, (step last ch).1.length + debt (step last ch).2 ≤ room)
    (g : Grow) (hg : Good g) (src : List Nat) (d : Dst) (hd : d.buf.length ≤ d.cap) :
    Appends g d (out16 step q 0 src) (convG step room factor restore g src d) ∧
    (restore = true → ∀ d', convG step room factor restore g src d = .oom d' → d'.buf = d.buf) := by
  unfold convG Appends
  by_cases h0 : src = []
  · subst h0; exact ⟨.inl ⟨d.cap, by simp [out16], by simpa [out16] using hd⟩, by simp⟩
  · simp only [h0, if_false]
    rcases lock_cases g hg d (d.buf.length + src.length * factor) with ⟨k1, k2⟩ | ⟨c, k1, k2⟩
    · rw [k1]; exact ⟨.inr ⟨k2, d, rfl, hd⟩, by intro _ d' h; cases h; rfl⟩
    · rw [k1]; simp only []
      rcases loop16g_ok step room q g hg hs src ⟨d.buf, c⟩ 0 (by simp [debt]; omega) with ⟨c', e1, e2⟩ | ⟨ht, o, c', e1, e2⟩
      · rw [e1]
        exact ⟨.inl ⟨c', rfl, by simpa using e2⟩, by simp⟩
      · rw [e1]
        refine ⟨.inr ⟨ht, _, rfl, ?_⟩, ?_⟩
        · cases restore <;> simp at e2 ⊢; omega
        · intro hr d' h; subst hr; cases h; simp

theorem endian_ok (swap : Nat → Nat) (g : Grow) (hg : Good g) (src : List Nat) (d : Dst) (hd : d.buf.length ≤ d.cap) :
    Appends g d (src.map swap) (endian swap g src d) := by
  unfold endian Appends
  by_cases h0 : src = []
  · subst h0; left; exact ⟨d.cap, by simp, by simpa using hd⟩
  · simp only [h0, if_false]
    rcases lock_cases g hg d (d.buf.length + src.length) with ⟨k1, k2⟩ | ⟨c, k1, k2⟩
    · right; rw [k1]; exact ⟨k2, d, rfl, hd⟩
    · left
      rw [k1]; simp only []
      rw [puts_ok _ _ (by simpa using k2)]
      exact ⟨c, rfl, by simpa using k2⟩

/-! ## emission bounds of each loop body -/
theorem bound8to16LE : ∀ ch rest o k, step8to16LE ch rest = some (o, k) → o.length ≤ k + 1 ∧ k ≤ rest.length := by
  intro ch rest o k h
  unfold step8to16LE at h
  repeat' split at h
  all_goals first | (cases h; simp) | cases h

theorem bound8to16BE : ∀ ch rest o k, step8to16BE ch rest = some (o, k) → o.length ≤ k + 1 ∧ k ≤ rest.length := by
  intro ch rest o k h
  unfold step8to16BE at h
  repeat' split at h
  all_goals first | (cases h; simp) | cases h

theorem bound8to32LE : ∀ ch rest o k, step8to32LE ch rest = some (o, k) → o.length ≤ k + 1 ∧ k ≤ rest.length := by
  intro ch rest o k h
  unfold step8to32LE at h
  repeat' split at h
  all_goals first | (cases h; simp) | cases h

theorem bound8to32BE : ∀ ch rest o k, step8to32BE ch rest = some (o, k) → o.length ≤ k + 1 ∧ k ≤ rest.length := by
  intro ch rest o k h
  unfold step8to32BE at h
  repeat' split at h
  all_goals first | (cases h; simp) | cases h

theorem debt0 : debt 0 = 0 := rfl
theorem debt_le (n) : debt n ≤ 1 := by unfold debt; split <;> omega

theorem bound16LEto8 (last ch : Nat) : (step16LEto8 last ch).1.length + debt (step16LEto8 last ch).2 ≤ 4 := by
  have := debt_le ch
  unfold step16LEto8; (repeat' split) <;> simp only [debt0, List.length_append, List.length_cons, List.length_nil] <;> omega
theorem step16BEto8_eq (last ch : Nat) : step16BEto8 last ch = step16LEto8 last (swap16 ch) := rfl
theorem bound16BEto8 (last ch : Nat) : (step16BEto8 last ch).1.length + debt (step16BEto8 last ch).2 ≤ 4 := bound16LEto8 last (swap16 ch)
theorem bound16LEto32LE (last ch : Nat) : (step16LEto32LE last ch).1.length + debt (step16LEto32LE last ch).2 ≤ 1 + debt last := by
  have := debt_le ch
  have h1 : debt 0 = 0 := rfl
  by_cases h0 : last = 0
  · subst h0
    unfold step16LEto32LE; (repeat' split) <;> simp_all
  · have h2 : debt last = 1 := by simp [debt, h0]
    unfold step16LEto32LE; (repeat' split) <;> simp_all; omega
theorem step16BEto32LE_eq (last ch : Nat) : step16BEto32LE last ch = step16LEto32LE last (swap16 ch) := rfl
theorem bound16BEto32LE (last ch : Nat) : (step16BEto32LE last ch).1.length + debt (step16BEto32LE last ch).2 ≤ 1 + debt last := bound16LEto32LE last (swap16 ch)
theorem step16BEto32BE_eq (last ch : Nat) : step16BEto32BE last ch = ((step16LEto32LE last (swap16 ch)).1.map swap32, (step16LEto32LE last (swap16 ch)).2) := by
  unfold step16BEto32BE step16LEto32LE
  simp only []
  generalize swap16 ch = c
  (repeat' split) <;> simp_all
theorem bound16BEto32BE (last ch : Nat) : (step16BEto32BE last ch).1.length + debt (step16BEto32BE last ch).2 ≤ 1 + debt last := by
  rw [step16BEto32BE_eq]; simpa using bound16LEto32LE last (swap16 ch)

theorem bound32LEto8 (last ch : Nat) : (noLast emit32LEto8 last ch).1.length + debt (noLast emit32LEto8 last ch).2 ≤ 6 := by
  unfold noLast emit32LEto8; (repeat' split) <;> simp [debt0]
theorem emit32BEto8_eq (ch : Nat) : emit32BEto8 ch = emit32LEto8 (swap32 ch) := rfl
theorem bound32BEto8 (last ch : Nat) : (noLast emit32BEto8 last ch).1.length + debt (noLast emit32BEto8 last ch).2 ≤ 6 := bound32LEto8 last (swap32 ch)
theorem bound32LEto16LE (last ch : Nat) : (noLast emit32LEto16LE last ch).1.length + debt (noLast emit32LEto16LE last ch).2 ≤ 2 := by
  unfold noLast emit32LEto16LE; (repeat' split) <;> simp [debt0]
theorem bound32LEto16BE (last ch : Nat) : (noLast emit32LEto16BE last ch).1.length + debt (noLast emit32LEto16BE last ch).2 ≤ 2 := by
  unfold noLast emit32LEto16BE; (repeat' split) <;> simp [debt0]
theorem bound32BEto16LE (last ch : Nat) : (noLast emit32BEto16LE last ch).1.length + debt (noLast emit32BEto16LE last ch).2 ≤ 2 := by
  unfold noLast emit32BEto16LE; generalize swap32 ch = c; simp only []; (repeat' split) <;> simp [debt0]
theorem bound32BEto16BE (last ch : Nat) : (noLast emit32BEto16BE last ch).1.length + debt (noLast emit32BEto16BE last ch).2 ≤ 2 := by
  unfold noLast emit32BEto16BE; generalize swap32 ch = c; simp only []; (repeat' split) <;> simp [debt0]

theorem out16_noLast (emit : Nat → List Nat) (tail : Nat) (src : List Nat) : out16 (noLast emit) tail 0 src = src.flatMap emit := by
  induction src with
  | nil => simp [out16]
  | cons c l ih => simp [out16, noLast] at ih ⊢; exact ih

end Verif.Utf
