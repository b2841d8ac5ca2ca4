import Verif.Delay.Props
/-!
# C101 for counters of less than 10 MHz

Two cases: the frequency divides 10 MHz (1 MHz, 2.5 MHz, …), then one tick is `m` units of 100 ns; or it does not (3 579 545 Hz of the ACPI timer, the 2 – 3 MHz of Windows machines that
divide the processor clock by 1024).
-/
namespace Verif.Delay
open Verif.Time Verif.MathUtils

theorem slow_fast {f m k : Nat} (hm : 1 < m) (hf : f * m = 10000000) (hk : k < 2 ^ 64) : umulDiv64Fast k f 10000000 = some (rnd k m) := by
  have f0 : 0 < f := Nat.pos_of_ne_zero (fun h => by subst h; omega)
  have e : 10000000 / f = m := by rw [← hf]; exact Nat.mul_div_cancel_left m f0
  have hlt : f < 10000000 := by
    have := Nat.mul_le_mul_left f (show 2 ≤ m from hm)
    omega
  unfold umulDiv64Fast
  rw [if_neg (by omega), if_neg (by omega), if_pos hlt, e]
  dsimp only
  have hl := Nat.mod_lt k (show 0 < m by omega)
  have hm7 : m ≤ 10000000 := by
    rw [← hf]; exact Nat.le_mul_of_pos_left m f0
  have e1 : k % m * 2 % 2 ^ 64 = k % m * 2 := Nat.mod_eq_of_lt (by omega)
  have e2 : (k / m + 1) % 2 ^ 64 = k / m + 1 := by
    have : k / m ≤ k / 2 := Nat.div_le_div_left (by omega) (by decide)
    exact Nat.mod_eq_of_lt (by omega)
  rw [e1, e2]
  rfl

theorem slow_diff {f m a b : Nat} (hm : 1 < m) (hf : f * m = 10000000) (hb : b ≤ a) (hw : (a - b) * m < 2 ^ 63) :
    tickDiff (f : Int) a b = some (((a - b) * m : Nat) : Int) := by
  have f0 : 0 < f := Nat.pos_of_ne_zero (fun h => by subst h; omega)
  have e : 10000000 / f = m := by rw [← hf]; exact Nat.mul_div_cancel_left m f0
  have hlt : f < 10000000 := by
    have := Nat.mul_le_mul_left f (show 2 ≤ m from hm)
    omega
  unfold tickDiff
  rw [toU_nat _ (by omega)]
  have : decide (a < b) = false := by simp; omega
  simp only [this, Bool.false_eq_true, if_false]
  unfold umulDiv64Fast
  rw [if_neg (by decide), if_pos hlt, if_neg (by omega), e, Nat.mod_eq_of_lt (by omega)]
  simp only [Option.map_some]
  rw [Nat.min_eq_left (by omega)]

/-- C101 (partial: the frequency divides 10 MHz; `m` is the length of a tick in units of 100 ns): the deadline is right to half a tick; a delayed task of a pool runner is posted less than a millisecond
before its deadline, never earlier, and the time asked for is never late. -/
theorem C101_slow_partial {f m t sp now : Nat} (hm : 1 < m) (hf : f * m = 10000000) (hs : sp < 2 ^ 63) (hw : t + rnd sp m < 2 ^ 64) (hn : now ≤ t + rnd sp m)
    (hlim : (t + rnd sp m) * m < now * m + u32max * 10000) :
    ∃ exp, deadline (f : Int) t sp = some exp ∧ 2 * (exp * m) ≤ 2 * (t * m + sp) + m ∧ 2 * (t * m + sp) ≤ 2 * (exp * m) + m
    ∧ (postNow (f : Int) now exp = some true → exp * m < now * m + 10000)
    ∧ (poolDue (f : Int) now exp = some .now ∧ exp * m < now * m + 10000
      ∨ ∃ ms, 0 < ms ∧ poolDue (f : Int) now exp = some (.inMs ms) ∧ (∀ a, now * m + ms * 10000 ≤ a * m → exp * m < a * m + 10000) ∧ now * m + ms * 10000 ≤ exp * m) := by
  have f0 : 0 < f := Nat.pos_of_ne_zero (fun h => by subst h; omega)
  have hlt : f < 10000000 := by
    have := Nat.mul_le_mul_left f (show 2 ≤ m from hm)
    omega
  have hm7 : m ≤ 10000000 := by
    rw [← hf]; exact Nat.le_mul_of_pos_left m f0
  have hd : deadline (f : Int) t sp = some (t + rnd sp m) := by
    unfold deadline tickAdd
    rw [toU_nat sp (by omega), toU_nat f (by omega), slow_fast hm hf (by omega)]
    simp only [Option.map_some]
    rw [Nat.mod_eq_of_lt hw]
  refine ⟨_, hd, ?_, ?_, ?_⟩
  · have := (rnd_near (k := sp) (show 0 < m by omega)).1
    rw [Nat.add_mul]; omega
  · have := (rnd_near (k := sp) (show 0 < m by omega)).2
    rw [Nat.add_mul]; omega
  · have key : ∀ exp, now ≤ exp → exp * m < now * m + u32max * 10000 → (postNow (f : Int) now exp = some true → exp * m < now * m + 10000)
      ∧ (poolDue (f : Int) now exp = some .now ∧ exp * m < now * m + 10000
        ∨ ∃ ms, 0 < ms ∧ poolDue (f : Int) now exp = some (.inMs ms) ∧ (∀ a, now * m + ms * 10000 ≤ a * m → exp * m < a * m + 10000) ∧ now * m + ms * 10000 ≤ exp * m) := ?_
    · exact key _ hn hlim
    clear hn hlim hw hd
    intro exp hn hlim
    have hsub : (exp - now) * m = exp * m - now * m := Nat.sub_mul _ _ _
    have hle : now * m ≤ exp * m := Nat.mul_le_mul_right m hn
    have hu := u32max_eq
    have hdiff := slow_diff hm hf hn (by rw [hsub]; rw [hu] at hlim; omega)
    generalize (exp - now) * m = R at hsub hdiff
    generalize u32max = U at *
    constructor
    · unfold postNow
      split
      · rename_i h0; intro _; subst h0; omega
      · rw [hdiff]
        simp only [Option.map_some, ms_eq, Option.some.injEq, decide_eq_true_eq]
        intro h; omega
    · unfold poolDue
      rw [hdiff]
      simp only [Option.map_some, ms_eq]
      by_cases h0 : R / 10000 = 0
      · left; rw [h0]; exact ⟨by simp, by omega⟩
      · right
        refine ⟨R / 10000, by omega, ?_, fun a ha => by omega, by omega⟩
        rw [if_neg (by omega)]
        congr 2
        rw [u32max_eq]; omega

/-- The wake-up time of `GetWaitTimeSpan` (partial: the frequency divides 10 MHz): at least 1 ms; apart from that it never sleeps too long, and unless the limit of 2^32 - 1 ms is reached it
wakes less than a millisecond early. -/
theorem C101_slow_wait_partial {f m wake now : Nat} (hm : 1 < m) (hf : f * m = 10000000) (hw : wake < tickMax) (hn : now ≤ wake) (hlim : (wake - now) * m < 2 ^ 63) :
    ∃ w, waitSpan (f : Int) now wake = some w ∧ 1 ≤ w ∧ w ≤ u32max ∧ (1 < w → now * m + w * 10000 ≤ wake * m) ∧ (w < u32max → wake * m < now * m + (w + 1) * 10000) := by
  have hsub : (wake - now) * m = wake * m - now * m := Nat.sub_mul _ _ _
  have hle : now * m ≤ wake * m := Nat.mul_le_mul_right m hn
  have hdiff := slow_diff hm hf hn hlim
  have hu := u32max_eq
  unfold waitSpan
  rw [if_neg (by omega), hdiff]
  simp only [Option.map_some, ms_eq]
  generalize (wake - now) * m = R at *
  by_cases c1 : (R : Int) ≤ 0
  · rw [if_pos c1]
    exact ⟨1, rfl, by omega, by omega, by omega, fun h => by omega⟩
  · rw [if_neg c1]
    by_cases c2 : ((u32max : Nat) : Int) ≤ ((R / 10000 : Nat) : Int)
    · rw [if_pos c2]
      refine ⟨u32max, rfl, by rw [hu]; decide, Nat.le_refl _, fun _ => ?_, fun h => absurd h (Nat.lt_irrefl _)⟩
      rw [hu] at c2 ⊢; omega
    · rw [if_neg c2]
      exact ⟨_, rfl, by omega, by omega, fun h => by omega, fun h => by omega⟩

/-- C101 is false at every frequency below 10 MHz that does not divide it: `10^7 / f` is rounded down, so that delays end late in real time, by a fixed part of the delay (up to twice as long). -/
theorem C101_slow_fails {f t j : Nat} (hf0 : 0 < f) (hf : f < 10000000) (hnd : 10000000 % f ≠ 0) (hj : 0 < j) (hw : t + j < 2 ^ 64) (hs : j * (10000000 / f) < 2 ^ 63) :
    deadline (f : Int) t ((j * (10000000 / f) : Nat) : Int) = some (t + j)
    ∧ t * 10000000 + j * (10000000 / f) * f + j * (10000000 % f) = (t + j) * 10000000 ∧ 0 < j * (10000000 % f) := by
  have hd : 0 < 10000000 / f := Nat.div_pos (by omega) hf0
  refine ⟨?_, ?_, Nat.mul_pos hj (by omega)⟩
  · unfold deadline tickAdd umulDiv64Fast
    have e1 : toU ((j * (10000000 / f) : Nat) : Int) = j * (10000000 / f) := toU_nat _ (by omega)
    rw [e1, toU_nat f (by omega)]
    rw [if_neg (by omega), if_neg (by omega), if_pos hf]
    dsimp only
    rw [Nat.mul_mod_left, Nat.mul_div_cancel j hd, if_neg (by omega)]
    simp only [Option.map_some]
    rw [Nat.mod_eq_of_lt hw]
  · have := Nat.div_add_mod 10000000 f
    have e : j * (10000000 / f) * f + j * (10000000 % f) = j * 10000000 := by
      rw [Nat.mul_assoc, ← Nat.mul_add, Nat.mul_comm (10000000 / f)]; congr 1
    rw [Nat.add_mul]; omega

/-- 3 579 545 Hz (ACPI timer): a delay of one second is due after 5 000 000 ticks, 1.4 s; 2.5 MHz: right. -/
theorem C101_slow_example : deadline 3579545 0 10000000 = some 5000000 ∧ deadline 2500000 100 10000000 = some 2500100 ∧ poolDue 2500000 100 2500100 = some (.inMs 1000) := by
  unfold poolDue; rw [u32max_eq]; decide +kernel

end Verif.Delay
