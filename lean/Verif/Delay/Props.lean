import Verif.Delay.Model
import Verif.Time.Props
/-!
# C101: delays and time limits in real time

`k` ticks of a counter of `f` ticks a second take `k / f` seconds; a span of `sp` takes `sp / 10^7` seconds.  All comparisons are multiplied out.
-/
namespace Verif.Delay
open Verif.Time Verif.MathUtils

theorem u32max_eq : u32max = 4294967295 := by unfold u32max; rfl

/-- a millisecond in ticks of a counter of `m * 10^7` ticks a second -/
@[irreducible] def oneMs (m : Nat) : Nat := 10000 * m

theorem oneMs_eq (m : Nat) : oneMs m = 10000 * m := by unfold oneMs; rfl

theorem div_ms {k m g : Nat} (hm : 0 < m) : k / m < g * 10000 ↔ k < g * oneMs m := by
  rw [Nat.div_lt_iff_lt_mul hm, oneMs_eq, Nat.mul_assoc]

theorem le_div_ms {k m g : Nat} (hm : 0 < m) : g * 10000 ≤ k / m ↔ g * oneMs m ≤ k := by
  rw [Nat.le_div_iff_mul_le hm, oneMs_eq, Nat.mul_assoc]

/-- `k` ticks in 100 ns for a counter of `m * 10^7` ticks a second, rounded to nearest -/
def rnd (k m : Nat) : Nat := if k % m * 2 ≥ m then k / m + 1 else k / m

theorem rnd_le {k m : Nat} (hm : 0 < m) : rnd k m * m ≤ k + (m - k % m) * 1 ∧ rnd k m ≤ k / m + 1 ∧ k / m ≤ rnd k m := by
  have := Nat.div_add_mod k m
  have hl := Nat.mod_lt k hm
  unfold rnd; split
  · refine ⟨?_, by omega, by omega⟩
    rw [Nat.add_mul, Nat.mul_comm (k / m)]; omega
  · refine ⟨?_, by omega, by omega⟩
    rw [Nat.mul_comm]; omega

/-- twice the rounding error is at most one unit -/
theorem rnd_near {k m : Nat} (hm : 0 < m) : 2 * (rnd k m * m) ≤ 2 * k + m ∧ 2 * k ≤ 2 * (rnd k m * m) + m := by
  have := Nat.div_add_mod k m
  have hl := Nat.mod_lt k hm
  have hc := Nat.mul_comm m (k / m)
  unfold rnd; split
  · rw [Nat.add_mul]; omega
  · omega

theorem rnd_one (k : Nat) : rnd k 1 = k := by unfold rnd; simp [Nat.mod_one]

theorem fast_down {k m : Nat} (hm : 0 < m) (hk : k < 2 ^ 64) (hm63 : m * 10000000 < 2 ^ 63) : umulDiv64Fast k 10000000 (m * 10000000) = some (rnd k m) := by
  unfold umulDiv64Fast
  by_cases h1 : m = 1
  · subst h1; simp [rnd_one]
  · have e : m * 10000000 / 10000000 = m := Nat.mul_div_cancel _ (by decide)
    rw [if_neg (by decide), if_neg (by omega), if_pos (by omega), e]
    dsimp only
    have hl := Nat.mod_lt k hm
    have e1 : k % m * 2 % 2 ^ 64 = k % m * 2 := Nat.mod_eq_of_lt (by omega)
    have e2 : (k / m + 1) % 2 ^ 64 = k / m + 1 := by
      have : k / m ≤ k / 2 := Nat.div_le_div_left (by omega) (by decide)
      exact Nat.mod_eq_of_lt (by omega)
    rw [e1, e2]
    rfl

theorem diff_eq {m a b : Nat} (hm : 0 < m) (hm63 : m * 10000000 < 2 ^ 63) (ha : a < 2 ^ 64) (hb : b ≤ a) :
    tickDiff ((m * 10000000 : Nat) : Int) a b = some ((min (rnd (a - b) m) (2 ^ 63 - 1) : Nat) : Int) := by
  unfold tickDiff
  rw [toU_nat _ (by omega)]
  have : decide (a < b) = false := by simp; omega
  simp only [this, Bool.false_eq_true, if_false]
  rw [fast_down hm (by omega) hm63]
  rfl

theorem ms_eq (d : Nat) : spanTotal .ms (d : Int) = ((d / 10000 : Nat) : Int) := by
  rw [total_eq]; simp [ticks, Int.ofNat_tdiv]

theorem deadline_eq {m t : Nat} {sp : Nat} (hm : 0 < m) (hm63 : m * 10000000 < 2 ^ 63) (hw : t + sp * m < 2 ^ 64) (hs : sp < 2 ^ 63) :
    deadline ((m * 10000000 : Nat) : Int) t sp = some (t + sp * m) := by
  obtain ⟨t', h1, h2, h3⟩ := C62_add_exact_partial m hm hm63 (sp : Int) t (by omega)
  unfold deadline; rw [h1]
  have : ((t + sp * m : Nat) : Int) = (t : Int) + (sp : Int) * m := by simp
  congr 1; omega

theorem rnd_lower {k m g : Nat} (hm : 0 < m) (h : rnd k m < g * 10000) : k < g * oneMs m :=
  (div_ms hm).1 (Nat.lt_of_le_of_lt (rnd_le hm).2.2 h)

theorem rnd_upper {k m g : Nat} (hm : 0 < m) (h : g * 10000 ≤ rnd k m) : 2 * (g * oneMs m) ≤ 2 * k + m := by
  have h2 := Nat.mul_le_mul_right m h
  rw [Nat.mul_assoc, ← oneMs_eq] at h2
  have := (rnd_near (k := k) hm).1
  omega

theorem rnd_big {k m g : Nat} (hm : 0 < m) (h : g * oneMs m ≤ k) : g * 10000 ≤ rnd k m :=
  Nat.le_trans ((le_div_ms hm).2 h) (rnd_le hm).2.2

theorem rnd_small {k m g : Nat} (hm : 0 < m) (h : k < g * oneMs m) : rnd k m ≤ g * 10000 :=
  Nat.le_trans (rnd_le hm).2.1 ((div_ms hm).2 h)

theorem pool_aux {m exp now : Nat} (hm : 0 < m) (hm63 : m * 10000000 < 2 ^ 63) (hw : exp < 2 ^ 64) (hn : now ≤ exp) (hlim : exp < now + u32max * oneMs m) :
    (postNow ((m * 10000000 : Nat) : Int) now exp = some true → exp < now + oneMs m)
    ∧ (poolDue ((m * 10000000 : Nat) : Int) now exp = some .now ∧ exp < now + oneMs m
      ∨ ∃ ms, poolDue ((m * 10000000 : Nat) : Int) now exp = some (.inMs ms)
        ∧ (∀ a, now + ms * oneMs m ≤ a → exp < a + oneMs m) ∧ 2 * (now + ms * oneMs m) ≤ 2 * exp + m) := by
  have lo : ∀ g, rnd (exp - now) m < (g + 1) * 10000 → exp < now + (g * oneMs m + oneMs m) := fun g h => by
    have := rnd_lower hm h; rw [Nat.add_mul, Nat.one_mul] at this; omega
  have up : ∀ g, g * 10000 ≤ rnd (exp - now) m → 2 * (now + g * oneMs m) ≤ 2 * exp + m := fun g h => by
    have := rnd_upper hm h; omega
  have hb : rnd (exp - now) m ≤ u32max * 10000 := rnd_small hm (by omega)
  have hd := diff_eq hm hm63 hw hn
  have hp : 0 < oneMs m := by rw [oneMs_eq]; exact Nat.mul_pos (by decide) hm
  generalize rnd (exp - now) m = R at *
  clear hlim hw
  have hu : u32max = 4294967295 := u32max_eq
  generalize u32max = U at *
  have hmin : min R (2 ^ 63 - 1) = R := by subst hu; exact Nat.min_eq_left (Nat.le_trans hb (by decide))
  rw [hmin] at hd
  have early : R / 10000 = 0 → exp < now + oneMs m := by
    intro h
    have := lo 0 (by omega)
    rwa [Nat.zero_mul, Nat.zero_add] at this
  constructor
  · unfold postNow
    split
    · rename_i h0; intro _; rw [h0]; exact Nat.lt_of_lt_of_le hp (Nat.le_add_left _ _)
    · rw [hd]
      simp only [Option.map_some, ms_eq, Option.some.injEq, decide_eq_true_eq]
      intro h; exact early (by clear lo up hd; omega)
  · unfold poolDue
    rw [hd]
    simp only [Option.map_some, ms_eq]
    by_cases h0 : R / 10000 = 0
    · left; rw [h0]; exact ⟨by simp, early h0⟩
    · right
      refine ⟨R / 10000, ?_, ?_, up _ (Nat.div_mul_le_self _ _)⟩
      · clear lo up hd early
        rw [if_neg (by omega), u32max_eq]
        congr 2
        have : R / 10000 ≤ 4294967295 := by rw [hu] at hb; omega
        omega
      · intro a ha
        have := lo (R / 10000) (by clear lo up hd; omega)
        clear lo up hd
        omega

/-- C101 (partial: the frequency is a multiple of 10 MHz, the deadline fits into 64 bits, the time left at the call is less than 2^32 - 1 ms): a delayed task of a pool runner
is posted less than a millisecond before its time, never earlier – whether at once, by the test at the start, or by the system at any time `a` that is not before the time asked for –
and the time asked for is at most half a span unit late. -/
theorem C101_pool_partial {m t sp now : Nat} (hm : 0 < m) (hm63 : m * 10000000 < 2 ^ 63) (hs : sp < 2 ^ 63) (hw : t + sp * m < 2 ^ 64) (hn : now ≤ t + sp * m)
    (hlim : t + sp * m < now + u32max * oneMs m) :
    ∃ exp, deadline ((m * 10000000 : Nat) : Int) t sp = some exp ∧ exp = t + sp * m
    ∧ (postNow ((m * 10000000 : Nat) : Int) now exp = some true → exp < now + oneMs m)
    ∧ (poolDue ((m * 10000000 : Nat) : Int) now exp = some .now ∧ exp < now + oneMs m
      ∨ ∃ ms, poolDue ((m * 10000000 : Nat) : Int) now exp = some (.inMs ms)
        ∧ (∀ a, now + ms * oneMs m ≤ a → exp < a + oneMs m) ∧ 2 * (now + ms * oneMs m) ≤ 2 * exp + m) := by
  refine ⟨_, deadline_eq hm hm63 hw hs, rfl, ?_⟩
  exact pool_aux hm hm63 hw hn hlim

/-- C101 is false for long delays on pool runners: whatever more than 2^32 - 1 ms (49.7 days) is left is cut to 2^32 - 1 ms, after which the task is dispatched without looking at the clock again. -/
theorem C101_long_fails {m exp now : Nat} (hm : 0 < m) (hm63 : m * 10000000 < 2 ^ 63) (he : exp < 2 ^ 64) (h : now + u32max * oneMs m ≤ exp) :
    poolDue ((m * 10000000 : Nat) : Int) now exp = some (.inMs u32max) := by
  have hb : u32max * 10000 ≤ rnd (exp - now) m := rnd_big hm (by omega)
  have hd := diff_eq hm hm63 he (show now ≤ exp by omega)
  unfold poolDue
  rw [hd]
  simp only [Option.map_some, ms_eq]
  clear h hd
  generalize rnd (exp - now) m = R at *
  have hu : u32max = 4294967295 := u32max_eq
  rw [hu] at hb ⊢
  have : 4294967295 * 10000 ≤ min R (2 ^ 63 - 1) := Nat.le_min.2 ⟨hb, by decide⟩
  generalize min R (2 ^ 63 - 1) = R at *
  rw [if_neg (by omega)]
  congr 2
  omega

/-- C101 is false for `TimeSpan::GetMax()` ("for ever"): on a counter of an even multiple of 10 MHz the deadline wraps to the past, and the task is posted at once. -/
theorem C101_max_fails {m t now : Nat} (hm : 0 < m) (hev : m % 2 = 0) (hm63 : m * 10000000 < 2 ^ 63) (ht : m < t) (htn : t ≤ now) (hn : now < 2 ^ 64) :
    deadline ((m * 10000000 : Nat) : Int) t (2 ^ 63 - 1) = some (t - m) ∧ postNow ((m * 10000000 : Nat) : Int) now (t - m) = some true := by
  constructor
  · obtain ⟨t', h1, h2, h3⟩ := C62_add_exact_partial m hm hm63 (2 ^ 63 - 1) t (by omega)
    unfold deadline; rw [h1]
    obtain ⟨j, hj⟩ : ∃ j, m = 2 * j := ⟨m / 2, by omega⟩
    subst hj
    congr 1
    have : ((2 : Int) ^ 63 - 1) * ((2 * j : Nat) : Int) = 2 ^ 64 * j - 2 * j := by
      rw [Int.sub_mul]; push_cast; omega
    rw [this] at h3
    omega
  · unfold postNow
    rw [if_neg (by omega)]
    have hc : tickDiff ((m * 10000000 : Nat) : Int) (t - m) now = (tickDiff ((m * 10000000 : Nat) : Int) now (t - m)).map (- ·) := C62_diff_antisymm _ _ _
    rw [hc, diff_eq hm hm63 hn (by omega)]
    simp only [Option.map_some, Option.some.injEq, decide_eq_true_eq]
    rw [total_eq, Int.neg_tdiv]
    have := Int.tdiv_nonneg (a := ((min (rnd (now - (t - m)) m) (2 ^ 63 - 1) : Nat) : Int)) (b := ((ticks .ms : Nat) : Int)) (by omega) (by omega)
    omega

/-- C101 is false for delays below zero that reach back behind the start of the machine: the deadline wraps to the far future, and the task is not posted. -/
theorem C101_negative_fails {m t sp now : Nat} (hm : 0 < m) (hm63 : m * 10000000 < 2 ^ 63) (hs : t < sp * m) (hs2 : sp * m ≤ 2 ^ 62) (hn : now < 2 ^ 62) :
    ∃ exp, deadline ((m * 10000000 : Nat) : Int) t (-(sp : Int)) = some exp ∧ exp = 2 ^ 64 - (sp * m - t) ∧ postNow ((m * 10000000 : Nat) : Int) now exp = some false := by
  have hsp : sp ≤ sp * m := Nat.le_mul_of_pos_right sp hm
  obtain ⟨t', h1, h2, h3⟩ := C62_add_exact_partial m hm hm63 (-(sp : Int)) t (by omega)
  refine ⟨2 ^ 64 - (sp * m - t), ?_, rfl, ?_⟩
  · unfold deadline; rw [h1]
    congr 1
    have : -(sp : Int) * (m : Int) = -((sp * m : Nat) : Int) := by rw [Int.neg_mul]; simp
    rw [this] at h3
    omega
  · unfold postNow
    generalize hE : 2 ^ 64 - (sp * m - t) = exp
    rw [if_neg (by omega), diff_eq hm hm63 (by omega) (by omega)]
    simp only [Option.map_some, ms_eq, Option.some.injEq, decide_eq_false_iff_not]
    have hmm : m < 2 ^ 40 := by omega
    have hq : 2 ^ 22 ≤ (exp - now) / m := by
      rw [Nat.le_div_iff_mul_le hm]
      have : 2 ^ 22 * m ≤ 2 ^ 22 * 2 ^ 40 := Nat.mul_le_mul_left _ (by omega)
      omega
    have := (rnd_le (k := exp - now) hm).2.2
    omega

/-- C101 is false at every frequency above 10 MHz that is not a multiple of it (ARM machines: 19.2 MHz, 24 MHz): every delay ends early in real time, by the part lost in `f / 10^7`. -/
theorem C101_fast_fails {f t sp : Nat} (hf : 10000000 < f) (hf63 : f < 2 ^ 63) (hnd : f % 10000000 ≠ 0) (hs : 0 < sp) (hw : t + sp * (f / 10000000) < 2 ^ 64) (hs63 : sp < 2 ^ 63) :
    deadline (f : Int) t sp = some (t + sp * (f / 10000000)) ∧ (t + sp * (f / 10000000)) * 10000000 < t * 10000000 + sp * f := by
  constructor
  · unfold deadline tickAdd umulDiv64Fast
    rw [toU_nat sp (by omega), toU_nat f (by omega)]
    rw [if_neg (by omega), if_pos hf, if_neg (by decide)]
    simp only [Option.map_some]
    rw [Nat.mod_eq_of_lt (a := sp * (f / 10000000)) (by omega), Nat.mod_eq_of_lt hw]
  · have hd := Nat.div_add_mod f 10000000
    have : sp * f = sp * (f / 10000000) * 10000000 + sp * (f % 10000000) := by
      rw [Nat.mul_assoc, ← Nat.mul_add, Nat.mul_comm (f / 10000000)]; congr 1; exact hd.symm
    have h2 : 0 < sp * (f % 10000000) := Nat.mul_pos hs (by omega)
    rw [this, Nat.add_mul]; omega

/-- The wake-up time of `GetWaitTimeSpan` (partial: multiples of 10 MHz): at least 1 ms; it never sleeps longer than the time left (rounded to the span unit), except for that 1 ms; and unless
the limit of 2^32 - 1 ms is reached it wakes less than a millisecond early. -/
theorem C101_wait_partial {m wake now : Nat} (hm : 0 < m) (hm63 : m * 10000000 < 2 ^ 63) (hw : wake < tickMax) (hn : now ≤ wake) :
    ∃ w, waitSpan ((m * 10000000 : Nat) : Int) now wake = some w ∧ 1 ≤ w ∧ w ≤ u32max ∧ (1 < w → 2 * (now + w * oneMs m) ≤ 2 * wake + m)
      ∧ (w < u32max → wake < now + (w + 1) * oneMs m) := by
  have hT : tickMax = 2 ^ 64 - 1 := rfl
  have lo : ∀ g, rnd (wake - now) m < (g + 1) * 10000 → wake < now + (g + 1) * oneMs m := fun g h => by
    have := rnd_lower hm h; omega
  have up : ∀ g, g * 10000 ≤ rnd (wake - now) m → 2 * (now + g * oneMs m) ≤ 2 * wake + m := fun g h => by
    have := rnd_upper hm h; omega
  have hd := diff_eq hm hm63 (show wake < 2 ^ 64 by omega) hn
  unfold waitSpan
  rw [if_neg (by omega), hd]
  simp only [Option.map_some, ms_eq]
  clear hd hT hw
  generalize rnd (wake - now) m = Q at *
  have hu : u32max = 4294967295 := u32max_eq
  rw [hu]
  have hR : min Q (2 ^ 63 - 1) ≤ Q := Nat.min_le_left _ _
  have hR2 : min Q (2 ^ 63 - 1) < 42949672950000 → min Q (2 ^ 63 - 1) = Q := by
    clear lo up; intro h; omega
  generalize min Q (2 ^ 63 - 1) = R at *
  by_cases c1 : (R : Int) ≤ 0
  · rw [if_pos c1]
    refine ⟨1, rfl, by omega, by omega, by omega, fun h => lo 1 ?_⟩
    clear lo up; omega
  · rw [if_neg c1]
    by_cases c2 : ((4294967295 : Nat) : Int) ≤ ((R / 10000 : Nat) : Int)
    · rw [if_pos c2]
      refine ⟨4294967295, rfl, by omega, Nat.le_refl _, fun _ => up _ ?_, fun h => absurd h (Nat.lt_irrefl _)⟩
      clear lo up; omega
    · rw [if_neg c2]
      have e : (max (((R / 10000 : Nat)) : Int) 1).toNat = max (R / 10000) 1 := by clear lo up; omega
      rw [e]
      refine ⟨_, rfl, by omega, by clear lo up; omega, fun h => up _ ?_, fun h => lo _ ?_⟩
      · clear lo up; omega
      · clear lo up; omega

/-- Time limits: `GetTimeout` is 0 for spans up to zero, "never" from 2^32 - 1 ms on, the exact deadline between. -/
theorem C101_timeout_partial {m now : Nat} {span : Int} (hm : 0 < m) (hm63 : m * 10000000 < 2 ^ 63) :
    (span ≤ 0 → getTimeout ((m * 10000000 : Nat) : Int) now span = some 0)
    ∧ (42949672950000 ≤ span → getTimeout ((m * 10000000 : Nat) : Int) now span = some (2 ^ 64 - 1))
    ∧ (0 < span → span < 42949672950000 → now + span.toNat * m < 2 ^ 64 → getTimeout ((m * 10000000 : Nat) : Int) now span = some (now + span.toNat * m)) := by
  have e : spanFrom .ms u32max = some 42949672950000 := by rw [u32max_eq]; decide +kernel
  unfold getTimeout
  rw [e]
  refine ⟨fun h => by rw [if_pos h], fun h => ?_, fun h1 h2 h3 => ?_⟩
  · rw [if_neg (by omega)]; dsimp only; rw [if_pos h]; unfold tickMax; rfl
  · rw [if_neg (by omega)]; dsimp only; rw [if_neg (by omega)]
    have := deadline_eq (t := now) (sp := span.toNat) hm hm63 h3 (by omega)
    unfold deadline at this
    rwa [Int.toNat_of_nonneg (by omega)] at this

/-- Examples: 10 MHz, a delay of 1.5 ms at tick 1000 is due at tick 16000; the system is asked for 1 ms. -/
theorem C101_example : deadline 10000000 1000 15000 = some 16000 ∧ postNow 10000000 1000 16000 = some false ∧ poolDue 10000000 1000 16000 = some (.inMs 1) := by decide +kernel

/-- 24 MHz: a delay of one second is due after 20 000 000 ticks, 0.83 s. -/
theorem C101_fast_example : deadline 24000000 0 10000000 = some 20000000 := by decide +kernel

/-- A delay of 60 days on a pool runner at 10 MHz. -/
theorem C101_long_example : poolDue 10000000 0 51840000000000 = some (.inMs 4294967295) := by unfold poolDue; rw [u32max_eq]; decide +kernel

/-- `SleepAsync(TimeSpan::GetMax())` at a counter of 3 GHz (the time stamp counter): due 300 ticks ago. -/
theorem C101_max_example : deadline 3000000000 1000 (2 ^ 63 - 1) = some 700 ∧ postNow 3000000000 1000 700 = some true := by decide +kernel

end Verif.Delay
