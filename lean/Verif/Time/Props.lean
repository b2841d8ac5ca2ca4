import Verif.Time.Model
import Verif.MathUtils.Props
/-!
# C37 – time spans and tick counts; C38 – Unix time; C62 – tick counter conversion
-/
namespace Verif.Time
open Verif.MathUtils (i64 umulDiv64Fast nearest)

/-- ticks (100 ns) in a unit, by definition of the unit -/
def ticks : Unit → Nat
  | .us => 10
  | .ms => 10000
  | .s => 10000000
  | .min => 600000000
  | .h => 36000000000
  | .d => 864000000000

def fits (x : Int) : Prop := -2 ^ 63 ≤ x ∧ x < 2 ^ 63
instance (x : Int) : Decidable (fits x) := inferInstanceAs (Decidable (_ ∧ _))

/-- `r` is `x / k` truncated toward zero -/
def Truncated (x : Int) (k : Nat) (r : Int) : Prop := (0 ≤ x → r * k ≤ x ∧ x < (r + 1) * k) ∧ (x ≤ 0 → x ≤ r * k ∧ (r - 1) * k < x)

theorem i64_eq (x : Int) : i64 x = if fits x then some x else none := rfl

theorem chain_eq (x : Int) (fs : List Int) (hf : ∀ f ∈ fs, 1 ≤ f) (hx : fits x) : chain x fs = if fits (fs.foldl (· * ·) x) then some (fs.foldl (· * ·) x) else none := by
  induction fs generalizing x with
  | nil => simp [chain, hx]
  | cons f fs ih =>
    simp only [chain, List.foldl_cons, i64_eq]
    by_cases h : fits (x * f)
    · rw [if_pos h]
      exact ih _ (fun g hg => hf g (List.mem_cons_of_mem _ hg)) h
    · simp only [if_neg h]
      have hgrow : ∀ (gs : List Int) (y : Int), (∀ g ∈ gs, 1 ≤ g) → ¬ fits y → ¬ fits (gs.foldl (· * ·) y) := by
        intro gs
        induction gs with
        | nil => intro y _ hy; exact hy
        | cons g gs ih2 =>
          intro y hg hy
          refine ih2 _ (fun k hk => hg k (List.mem_cons_of_mem _ hk)) ?_
          have h1 : 1 ≤ g := hg g (List.mem_cons_self)
          intro hc
          apply hy
          unfold fits at hc ⊢
          dsimp only at hc
          constructor
          · by_cases h0 : 0 ≤ y
            · omega
            · have : y * g ≤ y * 1 := Int.mul_le_mul_of_nonpos_left (by omega) h1
              omega
          · by_cases h0 : 0 ≤ y
            · have : y * 1 ≤ y * g := Int.mul_le_mul_of_nonneg_left h1 h0
              omega
            · omega
      have hg := hgrow fs _ (fun g hg => hf g (List.mem_cons_of_mem _ hg)) h
      symm
      exact if_neg hg

/-- **C37** construction from whole units: exactly `x` units of ticks; undefined exactly if that is not representable. -/
theorem C37_from (u : Unit) (x : Int) (hx : fits x) : spanFrom u x = if fits (x * ticks u) then some (x * ticks u) else none := by
  unfold spanFrom
  rw [chain_eq x _ (by cases u <;> simp [Unit.factors]) hx]
  have : (u.factors.foldl (· * ·) x) = x * ticks u := by
    cases u <;> simp [Unit.factors, ticks] <;> omega
  rw [this]

theorem total_eq (u : Unit) (t : Int) : spanTotal u t = t.tdiv (ticks u) := by
  cases u <;> rfl

theorem tdiv_truncated (t : Int) (k : Nat) (hk : 0 < k) : Truncated t k (t.tdiv k) := by
  constructor
  · intro h
    rw [Int.tdiv_eq_ediv_of_nonneg h]
    exact ⟨Int.ediv_mul_le _ (by omega), Int.lt_ediv_add_one_mul_self _ (by omega)⟩
  · intro h
    have e : t.tdiv k = -((-t) / k) := by
      rw [← Int.tdiv_eq_ediv_of_nonneg (by omega), Int.neg_tdiv]
      simp
    rw [e]
    have h1 := Int.ediv_mul_le (-t) (b := (k : Int)) (by omega)
    have h2 := Int.lt_ediv_add_one_mul_self (-t) (b := (k : Int)) (by omega)
    constructor
    · have : -(-t / (k : Int)) * k = -((-t) / k * k) := by ring
      omega
    · have : (-(-t / (k : Int)) - 1) * k = -(((-t) / k + 1) * k) := by ring
      omega

/-- **C37** conversion to larger units truncates. -/
theorem C37_total_truncates (u : Unit) (t : Int) : Truncated t (ticks u) (spanTotal u t) := by
  rw [total_eq]
  exact tdiv_truncated t _ (by cases u <;> simp [ticks])

/-- **C37** and is inverse to construction from whole units. -/
theorem C37_roundtrip (u : Unit) (x t : Int) (hx : fits x) (h : spanFrom u x = some t) : spanTotal u t = x := by
  rw [C37_from u x hx] at h
  split at h
  · have h' := (Option.some.inj h).symm
    rw [h', total_eq, Int.mul_tdiv_cancel]
    cases u <;> simp [ticks]
  · exact absurd h (by simp)

/-- adding and subtracting spans -/
theorem C37_span_add_sub (a b c : Int) (ha : fits a) (h : spanAdd a b = some c) : c = a + b ∧ spanSub c b = some a := by
  unfold spanAdd at h
  rw [i64_eq] at h
  split at h
  · have h' := (Option.some.inj h).symm
    refine ⟨h', ?_⟩
    unfold spanSub
    rw [i64_eq, h']
    have : a + b - b = a := by omega
    rw [this, if_pos ha]
  · exact absurd h (by simp)

/-- the six operators are the usual total order -/
def Cmp.Lawful {α : Type} [LT α] [LE α] (c : Cmp α) : Prop :=
  ∀ a b, (c.eq a b = true ↔ a = b) ∧ (c.ne a b = true ↔ a ≠ b) ∧ (c.lt a b = true ↔ a < b) ∧ (c.le a b = true ↔ a ≤ b) ∧
    (c.gt a b = true ↔ b < a) ∧ (c.ge a b = true ↔ b ≤ a)

/-- **C37** the comparison operators with C++20, and those of tick counts and dates in every mode, are the usual order.
Missing: `TimeSpan` before C++20 (next theorem). -/
theorem C37_order_partial : spanCmp20.Lawful ∧ tickCmp20.Lawful ∧ tickCmp17.Lawful := by
  refine ⟨?_, ?_, ?_⟩
  · intro a b
    simp only [spanCmp20, decide_eq_true_eq, Bool.not_eq_true', decide_eq_false_iff_not]
    simp only [compare, compareOfLessAndEq]
    by_cases h1 : a < b
    · simp [h1]; omega
    · by_cases h2 : a = b
      · simp [h2]
      · simp [h1, h2]; omega
  · intro a b
    simp only [tickCmp20, decide_eq_true_eq, Bool.not_eq_true', decide_eq_false_iff_not]
    simp only [compare, compareOfLessAndEq]
    by_cases h1 : a < b
    · simp [h1]; omega
    · by_cases h2 : a = b
      · simp [h2]
      · simp [h1, h2]; omega
  · intro a b
    simp [tickCmp17]

/-- before C++20 `TimeSpan::operator>` holds for equal spans -/
theorem C37_span_gt_fails : ¬ spanCmp17.Lawful := by
  intro h
  have := (h 0 0).2.2.2.2.1
  simp [spanCmp17] at this

/-- … and that is the only wrong one -/
theorem C37_span17_rest (a b : Int) : (spanCmp17.eq a b = true ↔ a = b) ∧ (spanCmp17.ne a b = true ↔ a ≠ b) ∧ (spanCmp17.lt a b = true ↔ a < b) ∧
    (spanCmp17.le a b = true ↔ a ≤ b) ∧ (spanCmp17.ge a b = true ↔ b ≤ a) := by
  simp [spanCmp17]

theorem toU_nat (n : Nat) (h : n < 2 ^ 64) : toU (n : Int) = n := by unfold toU; omega

theorem toU_lt (x : Int) : toU x < 2 ^ 64 := by unfold toU; omega

theorem fast_some (a f : Nat) : ∃ k, umulDiv64Fast a f 10000000 = some k := by
  unfold umulDiv64Fast
  split
  · exact ⟨_, rfl⟩
  · split
    · exact ⟨_, by rw [if_neg (by omega)]⟩
    · split <;> exact ⟨_, rfl⟩

theorem fast_lt {a f k : Nat} (ha : a < 2 ^ 64) (h : umulDiv64Fast a f 10000000 = some k) : k < 2 ^ 64 := by
  unfold umulDiv64Fast at h
  split at h
  · simp at h; omega
  · split at h
    · split at h
      · exact absurd h (by simp)
      · have h' := Option.some.inj h
        rw [← h']; exact Nat.mod_lt _ (by omega)
    · split at h
      · have h' := Option.some.inj h
        rw [← h']
        split
        · exact Nat.mod_lt _ (by omega)
        · exact Nat.lt_of_le_of_lt (Nat.div_le_self _ _) ha
      · have h' := Option.some.inj h
        omega

/-- **C37** adding then subtracting the same span restores a tick count, for every frequency, instant and (also negative) span; and conversely. -/
theorem C37_tick_restores (f sp : Int) (t : Nat) (ht : t < 2 ^ 64) :
    (tickAdd f t sp).bind (tickSub f · sp) = some t ∧ (tickSub f t sp).bind (tickAdd f · sp) = some t := by
  obtain ⟨k, hk⟩ := fast_some (toU sp) (toU f)
  have hk64 := fast_lt (toU_lt sp) hk
  simp only [tickAdd, tickSub, hk, Option.map_some, Option.bind_some]
  constructor <;> (congr 1; omega)

/-- **C37** the same for dates; differences of dates are inverse to addition. -/
theorem C37_date_restores (t : Nat) (sp : Int) (ht : t < 2 ^ 64) (hs : fits sp) :
    dateSub (dateAdd t sp) sp = t ∧ dateAdd (dateSub t sp) sp = t ∧ dateDiff (dateAdd t sp) t = sp := by
  have hU := toU_lt sp
  refine ⟨?_, ?_, ?_⟩
  · unfold dateSub dateAdd; omega
  · unfold dateSub dateAdd; omega
  · unfold dateDiff dateAdd
    have e : ((t + toU sp) % 2 ^ 64 + (2 ^ 64 - t)) % 2 ^ 64 = toU sp := by omega
    rw [e]
    unfold toS toU
    unfold fits at hs
    split <;> omega

theorem C37_date_diff_add (a b : Nat) (ha : a < 2 ^ 64) (hb : b < 2 ^ 64) : dateAdd b (dateDiff a b) = a := by
  unfold dateDiff dateAdd toS toU
  split <;> omega

/-- **C37** tick counts: whole units survive construction and conversion back, if the frequency has at least one tick per unit, nothing overflows and the count is not negative. -/
theorem C37_tick_roundtrip (f : Int) (u : Unit) (x : Int) (hx0 : 0 ≤ x) (hx : fits x) (hf : fits f) (hf0 : 0 < f)
    (hus : u = .us → 1000000 ≤ f) (hms : u = .ms → 1000 ≤ f) (t : Nat) (d : Int) (hd : tickDiv f u = some d) (h : tickFrom f u x = some t) :
    tickTotal f u t = some x.toNat := by
  have one : ∀ x : Int, fits x → ∀ fs : List Int, (∀ g ∈ fs, 1 ≤ g) → ∀ y, chain x fs = some y → fits (fs.foldl (· * ·) x) ∧ y = fs.foldl (· * ·) x := by
    intro x hx fs hfs y hy
    rw [chain_eq x fs hfs hx] at hy
    split at hy
    · exact ⟨by assumption, (Option.some.inj hy).symm⟩
    · exact absurd hy (by simp)
  -- ticks per unit and the constructed count
  have key : ∃ k : Nat, 0 < k ∧ k < 2 ^ 63 ∧ d = (k : Int) ∧ ∃ y : Int, fits y ∧ y = x * k ∧ t = toU y := by
    have hfin : ∀ y : Int, ∀ k : Int, 0 < k → fits k → d = k → fits (x * k) → y = x * k → t = toU y →
        ∃ k : Nat, 0 < k ∧ k < 2 ^ 63 ∧ d = (k : Int) ∧ ∃ y : Int, fits y ∧ y = x * k ∧ t = toU y := by
      intro y k h1 h2 h3 h4 h5 h6
      have e : ((k.toNat : Nat) : Int) = k := by omega
      unfold fits at h2
      refine ⟨k.toNat, by omega, by omega, by omega, y, ?_, ?_, h6⟩
      · rw [h5]; exact h4
      · rw [h5, e]
    have q6 : f.tdiv 1000000 = f / 1000000 := Int.tdiv_eq_ediv_of_nonneg (by omega)
    have q3 : f.tdiv 1000 = f / 1000 := Int.tdiv_eq_ediv_of_nonneg (by omega)
    unfold fits at hf
    cases u <;> simp only [tickFrom, Option.map_eq_some_iff] at h <;> obtain ⟨y, hy, ht⟩ := h <;> simp only [tickDiv] at hd
    · have h1 := hus rfl
      have hd' := (Option.some.inj hd).symm
      obtain ⟨a, b⟩ := one x hx _ (by intro g hg; simp at hg; subst hg; omega) y hy
      simp only [List.foldl_cons, List.foldl_nil] at a b
      exact hfin y _ (by rw [q6]; omega) (by rw [q6]; unfold fits; omega) hd' a b ht.symm
    · have h1 := hms rfl
      have hd' := (Option.some.inj hd).symm
      obtain ⟨a, b⟩ := one x hx _ (by intro g hg; simp at hg; subst hg; omega) y hy
      simp only [List.foldl_cons, List.foldl_nil] at a b
      exact hfin y _ (by rw [q3]; omega) (by rw [q3]; unfold fits; omega) hd' a b ht.symm
    · have hd' := (Option.some.inj hd).symm
      obtain ⟨a, b⟩ := one x hx _ (by intro g hg; simp at hg; subst hg; omega) y hy
      simp only [List.foldl_cons, List.foldl_nil] at a b
      exact hfin y _ hf0 hf hd' a b ht.symm
    · obtain ⟨c1, c2⟩ := one f hf _ (by simp) d hd
      obtain ⟨a, b⟩ := one x hx _ (by intro g hg; simp at hg; omega) y hy
      simp only [List.foldl_cons, List.foldl_nil] at a b c1 c2
      exact hfin y _ (by omega) c1 c2 (by rw [← Int.mul_assoc]; exact a) (by rw [← Int.mul_assoc]; exact b) ht.symm
    · obtain ⟨c1, c2⟩ := one f hf _ (by simp) d hd
      obtain ⟨a, b⟩ := one x hx _ (by intro g hg; simp at hg; omega) y hy
      simp only [List.foldl_cons, List.foldl_nil] at a b c1 c2
      exact hfin y _ (by omega) c1 c2 (by simp only [← Int.mul_assoc]; exact a) (by simp only [← Int.mul_assoc]; exact b) ht.symm
    · obtain ⟨c1, c2⟩ := one f hf _ (by simp) d hd
      obtain ⟨a, b⟩ := one x hx _ (by intro g hg; simp at hg; omega) y hy
      simp only [List.foldl_cons, List.foldl_nil] at a b c1 c2
      exact hfin y _ (by omega) c1 c2 (by simp only [← Int.mul_assoc]; exact a) (by simp only [← Int.mul_assoc]; exact b) ht.symm
  obtain ⟨k, hk0, hk63, rfl, y, hy, rfl, rfl⟩ := key
  have hku : toU (k : Int) = k := by unfold toU; omega
  obtain ⟨X, rfl⟩ : ∃ X : Nat, x = X := ⟨x.toNat, by omega⟩
  have hyu : toU ((X : Int) * k) = X * k := by
    have e : ((X : Int) * k) = ((X * k : Nat) : Int) := by push_cast; ring
    unfold fits at hy
    rw [e] at hy ⊢
    generalize X * k = z at *
    unfold toU; omega
  simp only [tickTotal, hd, hku, hyu]
  rw [if_neg (by omega), Nat.mul_div_cancel _ hk0]
  simp

/-! ## C62: tick counter arithmetic in real time -/

/-- **C62** if the frequency is a multiple of 10 MHz, adding a span (also a negative one) moves the instant by exactly that time (modulo `2^64`). -/
theorem C62_add_exact_partial (m : Nat) (hm : 0 < m) (hm64 : m * 10000000 < 2 ^ 63) (sp : Int) (t : Nat) (ht : t < 2 ^ 64) :
    ∃ t', tickAdd ((m * 10000000 : Nat) : Int) t sp = some t' ∧ t' < 2 ^ 64 ∧ ((t' : Int) - (t + sp * m)) % 2 ^ 64 = 0 := by
  have hfU : toU ((m * 10000000 : Nat) : Int) = m * 10000000 := toU_nat _ (by omega)
  have hsU := toU_lt sp
  obtain ⟨q, hq⟩ : ∃ q : Int, sp = q * 2 ^ 64 + toU sp := ⟨sp / 2 ^ 64, by unfold toU; omega⟩
  have hk : umulDiv64Fast (toU sp) (m * 10000000) 10000000 = some (toU sp * m % 2 ^ 64) := by
    have := Verif.MathUtils.C36_fast_partial (toU sp) (m * 10000000) 10000000 hsU (by omega) (by omega) (by omega) (.inl ⟨m, by omega⟩)
    rw [this, ← Nat.mul_assoc, Verif.MathUtils.nearest_exact _ _ (by omega)]
  simp only [tickAdd, hfU, hk, Option.map_some]
  refine ⟨_, rfl, Nat.mod_lt _ (by omega), ?_⟩
  have e : sp * m = q * m * 2 ^ 64 + ((toU sp * m : Nat) : Int) := by
    conv => lhs; rw [hq]
    push_cast; ring
  rw [e]
  generalize toU sp * m = z
  generalize q * (m : Int) = w
  omega

/-- **C62** if 10 MHz is a multiple of the frequency and the span is not negative, the instant moves by the span rounded to the nearest tick. -/
theorem C62_add_round_partial (f m : Nat) (hf : 0 < f) (hm : f * m = 10000000) (sp : Int) (h0 : 0 ≤ sp) (hs : fits sp) (t : Nat) :
    tickAdd (f : Int) t sp = some ((t + nearest (sp.toNat * f) 10000000) % 2 ^ 64) := by
  have hle : f ≤ 10000000 := Nat.le_of_dvd (by omega) ⟨m, hm.symm⟩
  have hfU : toU (f : Int) = f := toU_nat _ (by omega)
  have hsp : toU sp = sp.toNat := by unfold toU; unfold fits at hs; omega
  have := Verif.MathUtils.C36_fast_partial (toU sp) f 10000000 (toU_lt sp) hf (by omega) (by omega) (.inr ⟨m, hm.symm⟩)
  rw [hsp] at this
  simp only [tickAdd, hfU, hsp, this, Option.map_some]
  generalize nearest (sp.toNat * f) 10000000 = z
  rw [Nat.add_mod_mod]

/-- A negative span moves the instant wrongly if the frequency is below 10 MHz: one microsecond before tick 5000 at 1 MHz is not 4999. -/
theorem C62_negative_span_fails : tickAdd 1000000 5000 (-10) = some 1844674407370960161 := by decide +kernel

/-- With the ACPI timer frequency 3579545 Hz one second is converted to 5000000 ticks instead of 3579545. -/
theorem C62_frequency_fails : tickAdd 3579545 0 10000000 = some 5000000 := by decide +kernel

/-- **C62** differences: if one of frequency and 10 MHz divides the other and the span is representable, the difference of two tick counts is their distance in 100 ns units rounded to nearest. -/
theorem C62_diff_partial (f : Nat) (hf : 0 < f) (hf63 : f < 2 ^ 63) (hdvd : f ∣ 10000000 ∨ 10000000 ∣ f) (a b : Nat) (ha : a < 2 ^ 64) (hb : b < 2 ^ 64)
    (hfit : nearest ((max a b - min a b) * 10000000) f < 2 ^ 63) :
    tickDiff (f : Int) a b = some (if a < b then -(nearest ((b - a) * 10000000) f : Int) else (nearest ((a - b) * 10000000) f : Int)) := by
  have hfU : toU (f : Int) = f := toU_nat _ (by omega)
  simp only [tickDiff, hfU]
  by_cases h : a < b
  · have e : max a b - min a b = b - a := by omega
    rw [e] at hfit
    have := Verif.MathUtils.C36_fast_partial (b - a) 10000000 f (by omega) (by omega) hf (by omega) hdvd
    simp only [h, decide_true, if_true, this, Option.map_some]
    rw [Nat.mod_eq_of_lt (by omega), Nat.min_eq_left (by omega)]
  · have e : max a b - min a b = a - b := by omega
    rw [e] at hfit
    have := Verif.MathUtils.C36_fast_partial (a - b) 10000000 f (by omega) (by omega) hf (by omega) hdvd
    simp only [h, decide_false, Bool.false_eq_true, if_false, this, Option.map_some]
    rw [Nat.mod_eq_of_lt (by omega), Nat.min_eq_left (by omega)]

/-- the difference is antisymmetric for every frequency -/
theorem C62_diff_antisymm (f : Int) (a b : Nat) : tickDiff f b a = (tickDiff f a b).map (- ·) := by
  simp only [tickDiff, Option.map_map]
  rcases Nat.lt_trichotomy a b with h | h | h
  · have h' : ¬ b < a := by omega
    simp [h, h', Function.comp_def]
  · subst h
    simp only [Nat.lt_irrefl, decide_false, Bool.false_eq_true, if_false, Nat.sub_self]
    cases hk : umulDiv64Fast 0 10000000 (toU f) with
    | none => rfl
    | some k =>
      have : k = 0 := by
        unfold umulDiv64Fast at hk
        simp at hk
        split at hk
        · simp at hk; omega
        · split at hk
          · rename_i h1 h2
            have : 0 < toU f / 10000000 := Nat.div_pos (by omega) (by omega)
            simp at hk
            omega
          · simp at hk; omega
      subst this
      simp
  · have h' : ¬ a < b := by omega
    simp [h, h', Function.comp_def]

/-! ## C38: Unix time -/

/-- **C38** every non-negative time stamp whose file time is below `2^63` survives the round trip. -/
theorem C38_roundtrip (t : Int) (h0 : 0 ≤ t) (hmax : t * 10000000 + 116444736000000000 < 2 ^ 63) : toUnix (fromUnix t) = t := by
  have e : fromUnix t = t.toNat * 10000000 + 116444736000000000 := by
    unfold fromUnix toU
    have : t ≠ -1 := by omega
    rw [if_pos this]
    omega
  rw [e]
  unfold toUnix
  split
  · omega
  · split
    · omega
    · omega

/-- **C38** conversion truncates to whole seconds since 1970 … -/
theorem C38_truncates (u : Nat) (h1 : 116444736000000000 ≤ u) (h2 : u < 2 ^ 63) :
    Truncated ((u : Int) - 116444736000000000) 10000000 (toUnix u) := by
  unfold toUnix Truncated
  rw [if_neg (by omega), if_neg (by omega)]
  constructor <;> intro h <;> constructor <;> omega

/-- … is monotone on its range … -/
theorem C38_monotone (u v : Nat) (huv : u ≤ v) (h2 : v < 2 ^ 63) : toUnix u ≤ toUnix v := by
  have hv : ¬ v ≥ 2 ^ 63 := by omega
  have hu : ¬ u ≥ 2 ^ 63 := by omega
  unfold toUnix
  rw [if_neg hv, if_neg hu]
  split
  · split <;> omega
  · rename_i h
    have h' : ¬ v < 116444736000000000 := by omega
    rw [if_neg h']; omega

/-- … and reports -1 exactly outside of it. -/
theorem C38_range (u : Nat) : toUnix u = -1 ↔ (u < 116444736000000000 ∨ 2 ^ 63 ≤ u) := by
  unfold toUnix
  split
  · simp; omega
  · split
    · simp; omega
    · constructor
      · intro h; omega
      · intro h; omega

/-- -1 stays -1 -/
theorem C38_minus_one : toUnix (fromUnix (-1)) = -1 := by decide +kernel

/-- Larger time stamps wrap around silently: this one comes back as 0 seconds … not reported as out of range. -/
theorem C38_large_wraps : toUnix (fromUnix 1844674407371) = 0 := by decide +kernel

example : spanFrom .d 7 = some 6048000000000 := by decide
example : spanTotal .ms (-15000) = -1 := by decide
example : tickFrom 10000000 .ms 5 = some 50000 ∧ tickTotal 10000000 .ms 50000 = some 5 := by decide +kernel
example : tickDiff 1000000 7 9 = some (-20) := by decide +kernel
example : toUnix (fromUnix 1700000000) = 1700000000 := C38_roundtrip _ (by omega) (by omega)

#print axioms C37_from
#print axioms C37_total_truncates
#print axioms C37_tick_roundtrip
#print axioms C62_add_exact_partial
#print axioms C62_diff_antisymm
#print axioms C38_roundtrip

end Verif.Time
