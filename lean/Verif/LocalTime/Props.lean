import Verif.LocalTime.Model

/-! C77: conversions between UTC and local time are exact to the tick, as far as the zone is. -/
namespace Verif.LocalTime

theorem addRest_eq {t u : Nat} (h : t < sysEnd) : addRest (t * 10000) u = t * 10000 + u % 10000 := by
  unfold addRest
  have : u % 10000 < 10000 := Nat.mod_lt _ (by decide)
  unfold sysEnd at h
  exact Nat.mod_eq_of_lt (by omega)

/-- Both conversions replace the milliseconds by what the zone says and keep the ticks below the millisecond. Partial: the zone's answer must be a time before the year 30828 (`C77_late_fails`). -/
theorem C77_exact_partial (z : Zone) (t l : Nat) (ht : t < 2 ^ 63) (hl : l < sysEnd) :
    (z.toLocal (t / 10000) = some l → toLocal z t = l * 10000 + t % 10000) ∧ (z.toUtc (t / 10000) = some l → toUtc z t = l * 10000 + t % 10000) := by
  constructor
  · intro h
    unfold toLocal toSystem; rw [if_pos ht]; dsimp only; rw [h]; dsimp only
    unfold fromSystem; rw [if_pos hl]; exact addRest_eq hl
  · intro h
    unfold toUtc toSystem; rw [if_pos ht]; dsimp only; rw [h]; dsimp only
    unfold fromSystem; rw [if_pos hl]; exact addRest_eq hl

/-- A zone at a fixed distance moves every time by that distance, and back. -/
theorem C77_fixed (off : Int) (t : Nat) (ht : t < sysEnd * 10000) (h0 : 0 ≤ (t : Int) / 10000 + off) (h1 : (t : Int) / 10000 + off < sysEnd) :
    (toLocal (fixed off) t : Int) = t + off * 10000 ∧ toUtc (fixed off) (toLocal (fixed off) t) = t := by
  have hs : sysEnd = 922314988800000 := rfl
  have hq : ((t / 10000 : Nat) : Int) = (t : Int) / 10000 := rfl
  have hl : (fixed off).toLocal (t / 10000) = some ((t : Int) / 10000 + off).toNat := by
    unfold fixed; dsimp only; rw [if_pos (by omega)]; congr 1
  have e := (C77_exact_partial (fixed off) t _ (by rw [hs] at ht; omega) (by omega)).1 hl
  refine ⟨by rw [e]; omega, ?_⟩
  have hdiv : toLocal (fixed off) t / 10000 = ((t : Int) / 10000 + off).toNat := by rw [e]; omega
  have hmod : toLocal (fixed off) t % 10000 = t % 10000 := by rw [e]; omega
  have hu : (fixed off).toUtc (toLocal (fixed off) t / 10000) = some (t / 10000) := by
    rw [hdiv]; unfold fixed; dsimp only; rw [if_pos (by omega)]; congr 1; omega
  have e2 := (C77_exact_partial (fixed off) (toLocal (fixed off) t) (t / 10000) (by rw [e]; omega) (by omega)).2 hu
  rw [e2, hmod]; omega

/-- A time whose millisecond the zone maps there and back is mapped there and back, with all its ticks. -/
theorem C77_round_partial (z : Zone) (t l : Nat) (ht : t < sysEnd * 10000) (hl : l < sysEnd) (h1 : z.toLocal (t / 10000) = some l) (h2 : z.toUtc l = some (t / 10000)) :
    toUtc z (toLocal z t) = t := by
  have hs : sysEnd = 922314988800000 := rfl
  have e := (C77_exact_partial z t l (by rw [hs] at ht; omega) hl).1 h1
  have hdiv : toLocal z t / 10000 = l := by rw [e]; omega
  have hmod : toLocal z t % 10000 = t % 10000 := by rw [e]; omega
  have e2 := (C77_exact_partial z (toLocal z t) (t / 10000) (by rw [e]; omega) (by omega)).2 (by rw [hdiv]; exact h2)
  rw [e2, hmod]; omega

/-- Where the clock is set back, two UTC times have the same local time, and one of them does not come back - whatever the zone answers. -/
theorem C77_round_fails (z : Zone) (a b l : Nat) (ha : a < sysEnd) (hb : b < sysEnd) (hl : l < sysEnd) (hab : a ≠ b) (h1 : z.toLocal a = some l) (h2 : z.toLocal b = some l) :
    ∃ t, t < sysEnd * 10000 ∧ toUtc z (toLocal z t) ≠ t := by
  have hs : sysEnd = 922314988800000 := rfl
  have ea := (C77_exact_partial z (a * 10000) l (by omega) hl).1 (by rw [Nat.mul_div_cancel _ (by decide)]; exact h1)
  have eb := (C77_exact_partial z (b * 10000) l (by omega) hl).1 (by rw [Nat.mul_div_cancel _ (by decide)]; exact h2)
  have same : toLocal z (a * 10000) = toLocal z (b * 10000) := by rw [ea, eb]; omega
  by_cases h : toUtc z (toLocal z (a * 10000)) = a * 10000
  · refine ⟨b * 10000, by omega, fun hb' => ?_⟩
    rw [← same, h] at hb'; omega
  · exact ⟨a * 10000, by omega, h⟩

/-- Where the zone does not turn back, neither do the converted times: order and distinctness are kept, also within a millisecond. -/
theorem C77_order (z : Zone) (a b la lb : Nat) (hb : b < 2 ^ 63) (hla : la < sysEnd) (hlb : lb < sysEnd) (h1 : z.toLocal (a / 10000) = some la) (h2 : z.toLocal (b / 10000) = some lb)
    (mono : a / 10000 < b / 10000 → la < lb) (hab : a < b) : toLocal z a < toLocal z b := by
  rw [(C77_exact_partial z a la (by omega) hla).1 h1, (C77_exact_partial z b lb hb hlb).1 h2]
  by_cases h : a / 10000 = b / 10000
  · rw [h, h2] at h1; cases h1; omega
  · have := mono (by omega); omega

/-- A time Windows cannot take apart, or that the zone refuses, becomes the "no time" value - and nothing else tells. Partial: this is not so when the answer itself cannot be put together (`C77_late_fails`). -/
theorem C77_invalid_partial (z : Zone) (t : Nat) (h : 2 ^ 63 ≤ t ∨ z.toLocal (t / 10000) = none) : toLocal z t = 2 ^ 64 - 1 := by
  unfold toLocal toSystem
  rcases h with h | h
  · rw [if_neg (by omega)]; rfl
  · split
    · rfl
    · rename_i hm
      split at hm
      · cases hm; rw [h]; rfl
      · cases hm

/-- "No time" stays "no time". -/
theorem C77_no_time (z : Zone) : toLocal z (2 ^ 64 - 1) = 2 ^ 64 - 1 ∧ toUtc z (2 ^ 64 - 1) = 2 ^ 64 - 1 := ⟨rfl, rfl⟩

/-- When the local time lies in the year 30828 or later, the failed `SystemTimeToFileTime` leaves `UINT64_MAX`, to which the ticks below the millisecond are added: unless these are 0, the result wraps round to the first millisecond of 1601. -/
theorem C77_late_fails (z : Zone) (t l : Nat) (ht : t < 2 ^ 63) (h : z.toLocal (t / 10000) = some l) (hl : sysEnd ≤ l) :
    toLocal z t = (if t % 10000 = 0 then 2 ^ 64 - 1 else t % 10000 - 1) := by
  unfold toLocal toSystem; rw [if_pos ht]; dsimp only; rw [h]; dsimp only
  unfold fromSystem; rw [if_neg (by omega)]
  unfold addRest noTime
  have : t % 10000 < 10000 := Nat.mod_lt _ (by decide)
  split <;> omega

/-- `LocalDataTime::FromUnixTimestamp` does not convert: a Unix timestamp, which is UTC, taken through a local time and back is wrong by the distance of the zone. -/
theorem C77_unix_fails (s : Nat) (off : Int) (hs : s < 10 ^ 9 * 900) (h0 : -86400 ≤ off) (h1 : off ≤ s) :
    Time.toUnix (toUtc (fixed (off * 1000)) (Local.fromUnix s (fixed (off * 1000))).ticks) = s - off := by
  have hE : sysEnd = 922314988800000 := rfl
  have e0 : (Local.fromUnix (s : Int) (fixed (off * 1000))).ticks = s * 10000000 + 116444736000000000 := by
    unfold Local.fromUnix Time.fromUnix Time.toU; dsimp only
    rw [if_pos (by omega)]
    omega
  rw [e0]
  have hd : (s * 10000000 + 116444736000000000) / 10000 = s * 1000 + 11644473600000 := by omega
  have hm : (s * 10000000 + 116444736000000000) % 10000 = 0 := by omega
  have hu : (fixed (off * 1000)).toUtc ((s * 10000000 + 116444736000000000) / 10000) = some ((s : Int) * 1000 + 11644473600000 - off * 1000).toNat := by
    rw [hd]; unfold fixed; dsimp only; rw [if_pos (by omega)]; rfl
  rw [(C77_exact_partial _ _ _ (by omega) (by omega)).2 hu, hm]
  unfold Time.toUnix
  rw [if_neg (by omega), if_neg (by omega)]
  omega

/-- Local times compare by their clock readings: of two times in different zones, the later can count as the earlier. -/
theorem C77_compare_fails : ∃ a b : Local, Local.lt a b = true ∧ toUtc b.zone b.ticks < toUtc a.zone a.ticks :=
  ⟨⟨116444736000000000, fixed 0⟩, ⟨116444736000000001, fixed 3600000⟩, by decide, by decide⟩

/-! ## Concrete cases -/

/-- 1970 + 1 s + 1234.5678 ms in a zone one hour ahead -/
example : toLocal (fixed 3600000) (116444736000000000 + 10000000 + 12345678) = 116444736000000000 + 10000000 + 12345678 + 36000000000 := by decide
example : toUtc (fixed 3600000) (toLocal (fixed 3600000) 116444736012345678) = 116444736012345678 := by decide
/-- a zone whose clock is set back by an hour at millisecond 7200000: the local hour comes twice -/
def back : Zone := ⟨fun m => some (if m < 7200000 then m + 3600000 else m), fun l => some (if l < 7200000 then l - 3600000 else l)⟩
example : back.toLocal 3600000 = some 7200000 ∧ back.toLocal 7200000 = some 7200000 := by decide
/-- the last hour of 30827, one hour ahead: wraps to tick 4 -/
example : toLocal (fixed 3600000) (9223149887999990005) = 4 := by decide

end Verif.LocalTime
