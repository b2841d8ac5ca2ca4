import Verif.MathUtils.Model
import Mathlib.Tactic.Ring
import Mathlib.Tactic.Linarith
/-!
# C36 – 64-bit multiply-divide
-/
namespace Verif.MathUtils

/-- `x / d` rounded to the nearest integer, halves up -/
def nearest (x d : Nat) : Nat := (2 * x + d) / (2 * d)

/-- the defining inequality -/
theorem nearest_spec (x d : Nat) (hd : 0 < d) : 2 * d * nearest x d ≤ 2 * x + d ∧ 2 * x + d < 2 * d * (nearest x d + 1) := by
  unfold nearest
  have h1 := Nat.div_mul_le_self (2 * x + d) (2 * d)
  have h2 := Nat.lt_div_mul_add (a := 2 * x + d) (b := 2 * d) (by omega)
  constructor
  · rw [Nat.mul_comm]; exact h1
  · rw [Nat.mul_add, Nat.mul_comm (2 * d) _]; omega

theorem or_shift (x y : Nat) (hx : x < 2 ^ 32) (hy : y < 2 ^ 32) : (y * 2 ^ 32 % 2 ^ 64) ||| x = y * 2 ^ 32 + x := by
  have : y * 2 ^ 32 % 2 ^ 64 = y * 2 ^ 32 := by omega
  rw [this]
  have := Nat.shiftLeft_add_eq_or_of_lt hx y
  rw [Nat.shiftLeft_eq] at this
  exact this.symm

theorem or_shift' (x y : Nat) (hx : x < 2 ^ 32) : x ||| (y * 2 ^ 32 % 2 ^ 64) = (y % 2 ^ 32) * 2 ^ 32 + x := by
  have : y * 2 ^ 32 % 2 ^ 64 = (y % 2 ^ 32) * 2 ^ 32 := by omega
  rw [this, Nat.or_comm]
  have := Nat.shiftLeft_add_eq_or_of_lt hx (y % 2 ^ 32)
  rw [Nat.shiftLeft_eq] at this
  exact this.symm

theorem mul32 {a b : Nat} (ha : a < 2 ^ 32) (hb : b < 2 ^ 32) : a * b ≤ (2 ^ 32 - 1) * (2 ^ 32 - 1) := Nat.mul_le_mul (by omega) (by omega)

/-- **C36** the portable 64×64→128 multiplication is exact for all operands. -/
theorem C36_umul128_exact (a b : Nat) (ha : a < 2 ^ 64) (hb : b < 2 ^ 64) :
    (umul128 a b).1 * 2 ^ 64 + (umul128 a b).2 = a * b ∧ (umul128 a b).1 < 2 ^ 64 ∧ (umul128 a b).2 < 2 ^ 64 := by
  have hal : a % 2 ^ 32 < 2 ^ 32 := by omega
  have hah : a / 2 ^ 32 < 2 ^ 32 := by omega
  have hbl : b % 2 ^ 32 < 2 ^ 32 := by omega
  have hbh : b / 2 ^ 32 < 2 ^ 32 := by omega
  have ea : a = 2 ^ 32 * (a / 2 ^ 32) + a % 2 ^ 32 := by omega
  have eb : b = 2 ^ 32 * (b / 2 ^ 32) + b % 2 ^ 32 := by omega
  simp only [umul128, Nat.mod_eq_of_lt hah, Nat.mod_eq_of_lt hbh]
  generalize a % 2 ^ 32 = al at *
  generalize a / 2 ^ 32 = ah at *
  generalize b % 2 ^ 32 = bl at *
  generalize b / 2 ^ 32 = bh at *
  have hab : a * b = 2 ^ 64 * (ah * bh) + 2 ^ 32 * (al * bh) + 2 ^ 32 * (ah * bl) + al * bl := by rw [ea, eb]; ring
  rw [hab]
  have m1 := mul32 hal hbl
  have m2 := mul32 hal hbh
  have m3 := mul32 hah hbl
  have m4 := mul32 hah hbh
  generalize al * bl = p1 at *
  generalize al * bh = p2 at *
  generalize ah * bl = p3 at *
  generalize ah * bh = p4 at *
  rw [or_shift' _ _ (by omega)]
  omega

/-- long division in base `B`, four digits -/
theorem longdiv (B h1 h0 l1 l0 d q3 r3 q2 r2 q1 r1 q0 r0 : Nat) (e3 : h1 = q3 * d + r3) (e2 : r3 * B + h0 = q2 * d + r2)
    (e1 : r2 * B + l1 = q1 * d + r1) (e0 : r1 * B + l0 = q0 * d + r0) :
    ((h1 * B + h0) * B + l1) * B + l0 = (((q3 * B + q2) * B + q1) * B + q0) * d + r0 := by
  have h3 : h1 * B + h0 = (q3 * B + q2) * d + r2 := by
    rw [e3]
    have : (q3 * d + r3) * B + h0 = q3 * d * B + (r3 * B + h0) := by ring
    rw [this, e2]; ring
  have h2 : (h1 * B + h0) * B + l1 = ((q3 * B + q2) * B + q1) * d + r1 := by
    rw [h3]
    have : ((q3 * B + q2) * d + r2) * B + l1 = (q3 * B + q2) * d * B + (r2 * B + l1) := by ring
    rw [this, e1]; ring
  rw [h2]
  have : (((q3 * B + q2) * B + q1) * d + r1) * B + l0 = ((q3 * B + q2) * B + q1) * d * B + (r1 * B + l0) := by ring
  rw [this, e0]; ring

theorem digit_lt (B r x d : Nat) (hd : 0 < d) (hr : r < d) (hx : x < B) : (r * B + x) / d < B := by
  rw [Nat.div_lt_iff_lt_mul hd]
  have h1 : (r + 1) * B ≤ d * B := Nat.mul_le_mul_right B hr
  rw [Nat.add_mul] at h1
  rw [Nat.mul_comm B d]
  omega

theorem longdiv_finish (B N d q3 q2 q1 q0 r0 : Nat) (hd : 0 < d) (key : N = (((q3 * B + q2) * B + q1) * B + q0) * d + r0) (kr : r0 < d) :
    N / d = ((q3 * B + q2) * B + q1) * B + q0 ∧ N % d = r0 := by
  constructor
  · rw [key, Nat.add_comm, Nat.add_mul_div_right _ _ hd, Nat.div_eq_of_lt kr, Nat.zero_add]
  · rw [key, Nat.add_comm, Nat.add_mul_mod_self_right, Nat.mod_eq_of_lt kr]

theorem digits64 (q3 q2 q1 q0 : Nat) (h1 : q1 < 2 ^ 32) (h0 : q0 < 2 ^ 32) :
    q1 * 2 ^ 32 + q0 = (((q3 * 2 ^ 32 + q2) * 2 ^ 32 + q1) * 2 ^ 32 + q0) % 2 ^ 64 := by omega

/-- The portable division is exact (quotient modulo `2^64`) for divisors up to `2^32`. -/
theorem C36_udiv128_exact_partial (hi lo d : Nat) (hhi : hi < 2 ^ 64) (hlo : lo < 2 ^ 64) (hd : 0 < d) (hd32 : d ≤ 2 ^ 32) :
    udiv128 hi lo d = some ((hi * 2 ^ 64 + lo) / d % 2 ^ 64, (hi * 2 ^ 64 + lo) % d) := by
  have hd0 : d ≠ 0 := by omega
  have hm : ∀ x, x % d < 2 ^ 32 := fun x => Nat.lt_of_lt_of_le (Nat.mod_lt _ hd) hd32
  have dm : ∀ x, x = x / d * d + x % d := fun x => by rw [Nat.mul_comm]; exact (Nat.div_add_mod x d).symm
  simp only [udiv128, hd0, if_false]
  have h1 := hm (hi / 2 ^ 32)
  rw [or_shift _ _ (by omega) h1]
  have h2 := hm (hi / 2 ^ 32 % d * 2 ^ 32 + hi % 2 ^ 32)
  rw [or_shift _ _ (by omega) h2]
  have h3 := hm ((hi / 2 ^ 32 % d * 2 ^ 32 + hi % 2 ^ 32) % d * 2 ^ 32 + lo / 2 ^ 32)
  rw [or_shift _ _ (by omega) h3]
  have key := longdiv (2 ^ 32) (hi / 2 ^ 32) (hi % 2 ^ 32) (lo / 2 ^ 32) (lo % 2 ^ 32) d _ _ _ _ _ _ _ _ (dm _) (dm _) (dm _) (dm _)
  have k1 := digit_lt (2 ^ 32) ((hi / 2 ^ 32 % d * 2 ^ 32 + hi % 2 ^ 32) % d) (lo / 2 ^ 32) d hd (Nat.mod_lt _ hd) (by omega)
  have k0 := digit_lt (2 ^ 32) (((hi / 2 ^ 32 % d * 2 ^ 32 + hi % 2 ^ 32) % d * 2 ^ 32 + lo / 2 ^ 32) % d) (lo % 2 ^ 32) d hd (Nat.mod_lt _ hd) (by omega)
  have kr := Nat.mod_lt ((((hi / 2 ^ 32 % d * 2 ^ 32 + hi % 2 ^ 32) % d * 2 ^ 32 + lo / 2 ^ 32) % d) * 2 ^ 32 + lo % 2 ^ 32) hd
  have el : ((hi / 2 ^ 32 * 2 ^ 32 + hi % 2 ^ 32) * 2 ^ 32 + lo / 2 ^ 32) * 2 ^ 32 + lo % 2 ^ 32 = hi * 2 ^ 64 + lo := by omega
  rw [el] at key
  obtain ⟨hdiv, hmod⟩ := longdiv_finish _ _ _ _ _ _ _ _ hd key kr
  rw [hdiv, hmod, Nat.mod_eq_of_lt k1, Nat.mod_eq_of_lt k0]
  exact congrArg (fun x => some (x, _)) (digits64 _ _ _ _ k1 k0)

/-- It is also exact for every divisor when the high word is zero. -/
theorem C36_udiv128_small (lo d : Nat) (hlo : lo < 2 ^ 64) (hd : 0 < d) : udiv128 0 lo d = some (lo / d, lo % d) := by
  by_cases h32 : d ≤ 2 ^ 32
  · have := C36_udiv128_exact_partial 0 lo d (by omega) hlo hd h32
    rw [this]
    have : lo / d ≤ lo := Nat.div_le_self _ _
    simp only [Nat.zero_mul, Nat.zero_add]
    rw [Nat.mod_eq_of_lt (by omega)]
  · have hd0 : d ≠ 0 := by omega
    simp only [udiv128, hd0, if_false]
    have z : (0 : Nat) / 2 ^ 32 % d = 0 := by simp
    have h1 : lo / 2 ^ 32 < d := by omega
    have z2 : (0 * 2 ^ 32 % 2 ^ 64 ||| 0 % 2 ^ 32) = 0 := by simp
    rw [z, z2, Nat.zero_mod]
    have z3 : (0 * 2 ^ 32 % 2 ^ 64 ||| lo / 2 ^ 32) = lo / 2 ^ 32 := by simp
    rw [z3, Nat.mod_eq_of_lt h1, Nat.div_eq_of_lt h1, or_shift _ _ (by omega) (by omega)]
    have e : lo / 2 ^ 32 * 2 ^ 32 + lo % 2 ^ 32 = lo := by omega
    rw [e]
    have : lo / d ≤ lo / 2 ^ 32 := Nat.div_le_div_left (by omega) (by omega)
    simp only [Nat.zero_mod, Nat.zero_mul, Nat.zero_add]
    rw [Nat.mod_eq_of_lt (by omega)]

/-- For larger divisors digits are lost: `2^96 / 2^33` comes out as 0 instead of `2^63`. -/
theorem C36_portable_fails : umulDiv64Port (2 ^ 48) (2 ^ 48) (2 ^ 33) = some 0 ∧ nearest (2 ^ 48 * 2 ^ 48) (2 ^ 33) = 2 ^ 63 := by
  decide +kernel

theorem roundUp_nearest (x c : Nat) (hc : 0 < c) (hc63 : c ≤ 2 ^ 63) (q : Nat) (hq : q = x / c % 2 ^ 64) :
    roundUp (q, x % c) c = nearest x c % 2 ^ 64 := by
  have hr := Nat.mod_lt x hc
  have hx := Nat.div_add_mod x c
  have key : nearest x c = x / c + if 2 * (x % c) ≥ c then 1 else 0 := by
    unfold nearest
    have e : 2 * x + c = (2 * c) * (x / c) + (2 * (x % c) + c) := by
      rw [Nat.mul_assoc]; omega
    rw [e, Nat.mul_add_div (by omega)]
    congr 1
    split
    · rename_i h
      have h1 : 2 * (x % c) + c = 2 * c + (2 * (x % c) - c) := by omega
      rw [h1, Nat.add_div_left _ (by omega), Nat.div_eq_of_lt (by omega)]
    · rename_i h
      exact Nat.div_eq_of_lt (by omega)
  rw [key]
  simp only [roundUp]
  have hm : x % c * 2 % 2 ^ 64 = x % c * 2 := by omega
  rw [hm, hq]
  by_cases h0 : x % c = 0
  · have : ¬ (2 * (x % c) ≥ c) := by omega
    rw [if_neg this, if_neg (by simp [h0])]
    rfl
  · simp only [ne_eq, h0, not_false_eq_true, if_true]
    by_cases h1 : x % c * 2 ≥ c
    · have : 2 * (x % c) ≥ c := by omega
      simp only [h1, this, if_true]
      omega
    · have : ¬ (2 * (x % c) ≥ c) := by omega
      simp only [h1, this, if_false]
      omega

/-- **C36 (x64).** For all operands with `0 < c ≤ 2^63` whose quotient fits 64 bits, `UMulDiv64` is the rounded quotient (modulo `2^64`, which
matters only if rounding up reaches `2^64`); if the quotient does not fit, or `c = 0`, the processor faults.
Missing: divisors above `2^63` (`C36_round_fails`). -/
theorem C36_x64_partial (a b c : Nat) (ha : a < 2 ^ 64) (hb : b < 2 ^ 64) (hc : c ≤ 2 ^ 63) :
    umulDiv64X64 a b c = if 0 < c ∧ a * b / c < 2 ^ 64 then some (nearest (a * b) c % 2 ^ 64) else none := by
  by_cases h0 : c = 0
  · subst h0
    simp [umulDiv64X64, hwDiv]
  · have hc0 : 0 < c := by omega
    unfold umulDiv64X64 hwMul hwDiv
    dsimp only
    have e : a * b / 2 ^ 64 * 2 ^ 64 + a * b % 2 ^ 64 = a * b := by
      have := Nat.div_add_mod (a * b) (2 ^ 64)
      omega
    rw [e]
    have hfit : a * b / c < 2 ^ 64 ↔ ¬ c ≤ a * b / 2 ^ 64 := by
      rw [Nat.div_lt_iff_lt_mul hc0, Nat.not_le, Nat.div_lt_iff_lt_mul (by omega), Nat.mul_comm c]
    by_cases hf : a * b / c < 2 ^ 64
    · have hf' := hfit.1 hf
      rw [if_neg hf', if_pos ⟨hc0, hf⟩]
      simp only [Option.map_some]
      rw [roundUp_nearest (a * b) c hc0 hc _ (Nat.mod_eq_of_lt hf).symm]
    · have hf' : c ≤ a * b / 2 ^ 64 := by
        refine Classical.byContradiction fun h => hf (hfit.2 h)
      rw [if_pos hf', if_neg (fun h => hf h.2)]
      rfl

/-- **C36 (portable).** For all operands with `0 < c ≤ 2^32`, or if the product fits 64 bits and `c ≤ 2^63`. -/
theorem C36_portable_partial (a b c : Nat) (ha : a < 2 ^ 64) (hb : b < 2 ^ 64) (hc : 0 < c) (h : c ≤ 2 ^ 32 ∨ (c ≤ 2 ^ 63 ∧ a * b < 2 ^ 64)) :
    umulDiv64Port a b c = some (nearest (a * b) c % 2 ^ 64) := by
  obtain ⟨h1, h2, h3⟩ := C36_umul128_exact a b ha hb
  simp only [umulDiv64Port]
  rcases h with h | ⟨h, hp⟩
  · rw [C36_udiv128_exact_partial _ _ c h2 h3 hc h, h1]
    simp only [Option.map_some]
    rw [roundUp_nearest (a * b) c hc (by omega) _ rfl]
  · have hz : (umul128 a b).1 = 0 := by omega
    have hl : (umul128 a b).2 = a * b := by omega
    rw [hz, hl, C36_udiv128_small _ c hp hc]
    simp only [Option.map_some]
    have hq : a * b / c = a * b / c % 2 ^ 64 := by
      have : a * b / c ≤ a * b := Nat.div_le_self _ _
      exact (Nat.mod_eq_of_lt (by omega)).symm
    rw [roundUp_nearest (a * b) c hc h _ hq]

/-- Above `2^63` doubling the remainder overflows: `(2^64 - 2) * 1 / (2^64 - 1)` gives 1 … but `(2^63) / (2^63 + 1)` gives 0, the nearest is 1. -/
theorem C36_round_fails : umulDiv64X64 (2 ^ 63) 1 (2 ^ 63 + 1) = some 0 ∧ nearest (2 ^ 63 * 1) (2 ^ 63 + 1) = 1 := by
  decide +kernel

/-- **C36 (fast).** If numerator and denominator are positive, one divides the other and the denominator is at most `2^63`, the fast variant is the rounded
quotient modulo `2^64`. -/
theorem C36_fast_partial (a num den : Nat) (ha : a < 2 ^ 64) (hn : 0 < num) (hd : 0 < den) (hd63 : den ≤ 2 ^ 63) (hdvd : den ∣ num ∨ num ∣ den) :
    umulDiv64Fast a num den = some (nearest (a * num) den % 2 ^ 64) := by
  have hexact : ∀ k, nearest (k * den) den = k := by
    intro k
    have e : 2 * (k * den) + den = (2 * den) * k + den := by ring
    rw [nearest, e, Nat.mul_add_div (by omega), Nat.div_eq_of_lt (by omega)]; rfl
  simp only [umulDiv64Fast]
  rw [if_neg (by omega)]
  by_cases h1 : num > den
  · rw [if_pos h1, if_neg (by omega)]
    have hdn : den ∣ num := by
      rcases hdvd with h | h
      · exact h
      · have := Nat.le_of_dvd hd h; omega
    obtain ⟨m, rfl⟩ := hdn
    rw [Nat.mul_div_cancel_left m hd]
    have : a * (den * m) = (a * m) * den := by ring
    rw [this, hexact]
  · rw [if_neg h1]
    by_cases h2 : num < den
    · rw [if_pos h2]
      have hnd : num ∣ den := by
        rcases hdvd with h | h
        · have := Nat.le_of_dvd hn h; omega
        · exact h
      obtain ⟨m, rfl⟩ := hnd
      rw [Nat.mul_div_cancel_left m hn]
      have hm : 0 < m := by
        rcases Nat.eq_zero_or_pos m with h | h
        · subst h; simp at hd
        · exact h
      have hle : m ≤ num * m := Nat.le_mul_of_pos_left m hn
      have hnear : nearest (a * num) (num * m) = nearest a m := by
        have e1 : 2 * (a * num) + num * m = num * (2 * a + m) := by ring
        have e2 : 2 * (num * m) = num * (2 * m) := by ring
        rw [nearest, nearest, e1, e2, Nat.mul_div_mul_left _ _ hn]
      rw [hnear]
      have hq : a / m = a / m % 2 ^ 64 := by
        have : a / m ≤ a := Nat.div_le_self _ _
        exact (Nat.mod_eq_of_lt (by omega)).symm
      rw [← roundUp_nearest a m hm (by omega) (a / m) hq]
      simp only [roundUp]
      have hr := Nat.mod_lt a hm
      by_cases h0 : a % m = 0
      · rw [h0]
        have : ¬ (0 * 2 % 2 ^ 64 ≥ m) := by omega
        simp [this]
        omega
      · simp [h0]
    · rw [if_neg h2]
      have : num = den := by omega
      subst this
      rw [hexact, Nat.mod_eq_of_lt ha]

/-- Without the multiple relation the fast variant is only approximate: 10 * 3 / 2 gives 10. -/
theorem C36_fast_needs_multiple : umulDiv64Fast 10 3 2 = some 10 ∧ nearest (10 * 3) 2 = 15 := by decide

theorem nearest_exact (k d : Nat) (hd : 0 < d) : nearest (k * d) d = k := by
  have e : 2 * (k * d) + d = (2 * d) * k + d := by ring
  rw [nearest, e, Nat.mul_add_div (by omega), Nat.div_eq_of_lt (by omega)]; rfl

theorem nearest_cancel (a n m : Nat) (hn : 0 < n) : nearest (a * n) (n * m) = nearest a m := by
  have e1 : 2 * (a * n) + n * m = n * (2 * a + m) := by ring
  have e2 : 2 * (n * m) = n * (2 * m) := by ring
  rw [nearest, nearest, e1, e2, Nat.mul_div_mul_left _ _ hn]

theorem nearest_eq (x c : Nat) (hc : 0 < c) : nearest x c = x / c + if 2 * (x % c) ≥ c then 1 else 0 := by
  have hr := Nat.mod_lt x hc
  have hx := Nat.div_add_mod x c
  unfold nearest
  have e : 2 * x + c = (2 * c) * (x / c) + (2 * (x % c) + c) := by
    rw [Nat.mul_assoc]; omega
  rw [e, Nat.mul_add_div (by omega)]
  congr 1
  split
  · rename_i h
    have h1 : 2 * (x % c) + c = 2 * c + (2 * (x % c) - c) := by omega
    rw [h1, Nat.add_div_left _ (by omega), Nat.div_eq_of_lt (by omega)]
  · rename_i h
    exact Nat.div_eq_of_lt (by omega)

theorem i64_some {x : Int} (h : x.natAbs < 2 ^ 63) : i64 x = some x := by
  unfold i64; rw [if_pos (by omega)]

theorem absI_eq {x : Int} (neg : Bool) (h : x.natAbs < 2 ^ 63) : absI x neg = some ((x.natAbs : Int), neg ^^ decide (x < 0)) := by
  unfold absI
  split
  · rename_i hx
    rw [i64_some (by omega)]
    have : -x = (x.natAbs : Int) := by omega
    simp [this, hx]
  · rename_i hx
    have : x = (x.natAbs : Int) := by omega
    simp [← this, hx]

theorem div_up_le (A m : Nat) (hm : 0 < m) (hA : A < 2 ^ 63) (hge : 2 * (A % m) ≥ m) : A / m + 1 < 2 ^ 63 := by
  by_cases h1 : m = 1
  · subst h1; rw [Nat.mod_one] at hge; omega
  · have h3 : A / m ≤ A / 2 := Nat.div_le_div_left (by omega) (by omega)
    omega

theorem fit1 (R m : Nat) (h : R < m) (h2 : m ≤ 2 ^ 62) : ((R : Int) * 2).natAbs < 2 ^ 63 := by omega
theorem fit2 (Q : Nat) (h : Q + 1 < 2 ^ 63) : ((Q : Int) + 1).natAbs < 2 ^ 63 := by omega
theorem fit3 (Q : Nat) (h : Q + 1 < 2 ^ 63) : (-((Q : Int) + 1)).natAbs < 2 ^ 63 := by omega
theorem fit4 (Q A : Nat) (h : Q ≤ A) (h : A < 2 ^ 63) : (-((Q : Int))).natAbs < 2 ^ 63 := by omega

theorem signed_tail' (Q R m : Nat) (a d : Int) (ng : Bool) (hmod : a % d = (R : Int)) (hdv : a / d = (Q : Int)) (hd : d = (m : Int))
    (k1 : i64 ((R : Int) * 2) = some ((R : Int) * 2)) (k2 : 2 * R ≥ m → i64 ((Q : Int) + 1) = some ((Q : Int) + 1))
    (k3 : 2 * R ≥ m → i64 (-((Q : Int) + 1)) = some (-((Q : Int) + 1))) (k4 : i64 (-(Q : Int)) = some (-(Q : Int))) :
    divRound a d ng = some (if ng then -((Q + if 2 * R ≥ m then 1 else 0 : Nat) : Int) else ((Q + if 2 * R ≥ m then 1 else 0 : Nat) : Int)) := by
  unfold divRound fin
  rw [hmod, hdv, k1, hd]
  by_cases hge : 2 * R ≥ m
  · have hge' : (R : Int) * 2 ≥ (m : Int) := by omega
    cases ng <;> simp only [k2 hge, k3 hge, if_pos hge, if_pos hge', if_true] <;> simp
  · have hge' : ¬ (R : Int) * 2 ≥ (m : Int) := by omega
    cases ng <;> simp only [k4, if_neg hge, if_neg hge', if_true] <;> simp

theorem signed_tail (A m : Nat) (ng : Bool) (hm : 0 < m) (hm62 : m ≤ 2 ^ 62) (hA : A < 2 ^ 63) :
    divRound A m ng = some (if ng then -(nearest A m : Int) else (nearest A m : Int)) := by
  rw [nearest_eq _ _ hm]
  have hr := Nat.mod_lt A hm
  have hQ : A / m ≤ A := Nat.div_le_self _ _
  have hup := div_up_le A m hm hA
  refine signed_tail' (A / m) (A % m) m A m ng (Int.natCast_mod A m).symm (Int.natCast_div A m).symm rfl ?_ ?_ ?_ ?_
  · exact i64_some (fit1 _ _ hr hm62)
  · exact fun h => i64_some (fit2 _ (hup h))
  · exact fun h => i64_some (fit3 _ (hup h))
  · exact i64_some (fit4 _ _ hQ hA)

/-- the sign of the exact result -/
def negRes (a num den : Int) : Bool := decide (num < 0) ^^ decide (den < 0) ^^ decide (a < 0)

/-- **C36 (signed fast).** For all `a`, `num`, `den` other than the most negative number, `den ≠ 0`, `|den| ≤ 2^62`, one a multiple of the other, and a quotient that fits:
no signed overflow occurs and the result is the quotient rounded to nearest, halves away from zero. -/
theorem C36_signed_partial (a num den : Int) (ha : a.natAbs < 2 ^ 63) (hn : num.natAbs < 2 ^ 63) (hd : den.natAbs ≤ 2 ^ 62) (hn0 : num ≠ 0) (hd0 : den ≠ 0)
    (hdvd : den ∣ num ∨ num ∣ den) (hfit : a.natAbs * num.natAbs < 2 ^ 63 * den.natAbs) :
    mulDiv64Fast a num den = some (if negRes a num den then -(nearest (a.natAbs * num.natAbs) den.natAbs : Int) else (nearest (a.natAbs * num.natAbs) den.natAbs : Int)) := by
  have hdvd' : den.natAbs ∣ num.natAbs ∨ num.natAbs ∣ den.natAbs := hdvd.imp Int.natAbs_dvd_natAbs.2 Int.natAbs_dvd_natAbs.2
  have hN : 0 < num.natAbs := by omega
  have hD : 0 < den.natAbs := by omega
  have hneg : negRes a num den = ((false ^^ decide (num < 0) ^^ decide (den < 0)) ^^ decide (a < 0)) := by
    simp [negRes]
  rw [hneg]
  simp only [mulDiv64Fast, fin]
  rw [if_neg hn0, absI_eq _ hn]
  dsimp only
  rw [absI_eq _ (by omega)]
  dsimp only
  generalize (false ^^ decide (num < 0) ^^ decide (den < 0)) = neg
  generalize num.natAbs = N at *
  generalize den.natAbs = D at *
  clear hneg hdvd hn0 hd0
  by_cases h1 : N > D
  · have hdn : D ∣ N := by
      rcases hdvd' with h | h
      · exact h
      · have := Nat.le_of_dvd hD h; omega
    obtain ⟨m, rfl⟩ := hdn
    have e : a.natAbs * (D * m) = (a.natAbs * m) * D := by ring
    have hm63 : a.natAbs * m < 2 ^ 63 := by
      rw [e] at hfit
      exact Nat.lt_of_mul_lt_mul_right hfit
    have hdiv : ((D * m : Nat) : Int) / (D : Int) = (m : Int) := by
      push_cast
      exact Int.mul_ediv_cancel_left _ (by omega)
    have hab : (a * (m : Int)).natAbs = a.natAbs * m := by rw [Int.natAbs_mul]; rfl
    rw [if_pos (by omega), if_neg (by omega), hdiv, i64_some (by omega)]
    dsimp only
    rw [i64_some (by omega), e, nearest_exact _ _ hD]
    push_cast
    by_cases h : a < 0
    · have hq : a * (m : Int) = -((a.natAbs : Int) * m) := by
        have : a = -(a.natAbs : Int) := by omega
        rw [this]; simp
      cases neg <;> simp [h, hq]
    · have hq : a * (m : Int) = ((a.natAbs : Int) * m) := by
        have : a = (a.natAbs : Int) := by omega
        rw [this]; simp
      cases neg <;> simp [h, hq]
  · rw [if_neg (by omega)]
    by_cases h2 : N < D
    · have hnd : N ∣ D := by
        rcases hdvd' with h | h
        · have := Nat.le_of_dvd hN h; omega
        · exact h
      obtain ⟨m, rfl⟩ := hnd
      have hm : 0 < m := by
        rcases Nat.eq_zero_or_pos m with h | h
        · subst h; simp at hD
        · exact h
      have hle : m ≤ N * m := Nat.le_mul_of_pos_left m hN
      have hdiv : ((N * m : Nat) : Int) / (N : Int) = (m : Int) := by
        push_cast
        exact Int.mul_ediv_cancel_left _ (by omega)
      rw [if_pos (by omega), absI_eq _ ha]
      dsimp only
      rw [hdiv, nearest_cancel _ _ _ hN]
      exact signed_tail _ _ _ hm (Nat.le_trans hle hd) ha
    · have : N = D := by omega
      subst this
      rw [if_neg (by omega), nearest_exact _ _ hN, i64_some (by omega)]
      by_cases h : a < 0
      · have hq : (a.natAbs : Int) = -a := by omega
        cases neg <;> simp [h, hq]
      · have hq : (a.natAbs : Int) = a := by omega
        cases neg <;> simp [h, hq]

/-- `num = INT64_MIN` is undefined although the result would be representable. -/
theorem C36_signed_min_fails : mulDiv64Fast 0 (-2 ^ 63) 1 = none := by decide +kernel

example : umulDiv64X64 10000000000 3 7 = some 4285714286 := by decide +kernel
example : umulDiv64Port 18446744073709551615 18446744073709551615 4294967295 = some (nearest (18446744073709551615 * 18446744073709551615) 4294967295 % 2 ^ 64) :=
  C36_portable_partial _ _ _ (by omega) (by omega) (by omega) (.inl (by omega))
example : umulDiv64Fast 25 1 10 = some 3 := by rfl
example : mulDiv64Fast (-25) 1 10 = some (-3) := C36_signed_partial (-25) 1 10 (by decide) (by decide) (by decide) (by decide) (by decide) (.inr (by decide)) (by decide)
example : mulDiv64Fast 7 (-30) 10 = some (-21) := by rfl

#print axioms C36_umul128_exact
#print axioms C36_x64_partial
#print axioms C36_portable_partial
#print axioms C36_fast_partial
#print axioms C36_signed_partial
#print axioms C36_portable_fails

end Verif.MathUtils
