import Verif.Time.Model

/-!
# Model of the conversions between UTC and local time

src/YY/Base/Time/DataTime.cpp 11-75, with the constructors of include/YY/Base/Time/DataTime.h 41-44, 182-197.

A `SYSTEMTIME` is the number of milliseconds since 1601: the calendar itself is Windows' own. `FileTimeToSystemTime` refuses tick counts of 2^63 and more; `SystemTimeToFileTime` refuses years above 30827.
A time zone is what `SystemTimeToTzSpecificLocalTimeEx` and `TzSpecificLocalTimeToSystemTimeEx` answer for it: two arbitrary functions, `none` for failure.
A time is `uTicks` (`uint64_t`); `UINT64_MAX` stands for "no time".
-/
namespace Verif.LocalTime

structure Zone where
  toLocal : Nat → Option Nat
  toUtc : Nat → Option Nat

/-- `UINT64_MAX`, the default of `uTicks` (DataTime.h 28, 172) -/
def noTime : Nat := 2 ^ 64 - 1

/-- milliseconds from 1601 to the first of January 30828 -/
def sysEnd : Nat := 922314988800000

/-- `UtcDataTime::ToSystemTime` (11-20), `LocalDataTime::ToSystemTime` (44-53): `none` throws -/
def toSystem (ticks : Nat) : Option Nat := if ticks < 2 ^ 63 then some (ticks / 10000) else none

/-- `UtcDataTime(const SYSTEMTIME&)` (DataTime.h 41-44), `LocalDataTime(const SYSTEMTIME&, …)` (193-197): a failure of `SystemTimeToFileTime` is not looked at and leaves the default -/
def fromSystem (ms : Nat) : Nat := if ms < sysEnd then ms * 10000 else noTime

/-- the correction by the lost digits (35, 68): `uint64_t` addition -/
def addRest (t ticks : Nat) : Nat := (t + ticks % 10000) % 2 ^ 64

/-- `UtcDataTime::ToLocalDataTime` (22-42): the exceptions of 16 and 30 end in the default -/
def toLocal (z : Zone) (ticks : Nat) : Nat :=
  match toSystem ticks with
  | none => noTime
  | some m =>
    match z.toLocal m with
    | none => noTime
    | some l => addRest (fromSystem l) ticks

/-- `LocalDataTime::ToUtcDataTime` (55-75) -/
def toUtc (z : Zone) (ticks : Nat) : Nat :=
  match toSystem ticks with
  | none => noTime
  | some l =>
    match z.toUtc l with
    | none => noTime
    | some m => addRest (fromSystem m) ticks

/-- `LocalDataTime`: the ticks and the zone they are meant in (DataTime.h 167-178) -/
structure Local where
  ticks : Nat
  zone : Zone

/-- `operator<` of `LocalDataTime` (281-284; in C++20 by `<=>`, 261-264) -/
def Local.lt (a b : Local) : Bool := a.ticks < b.ticks

/-- `LocalDataTime::FromUnixTimestamp` (226-236) -/
def Local.fromUnix (t : Int) (z : Zone) : Local := ⟨Time.fromUnix t, z⟩

/-- a zone with the same distance (in ms) from UTC at all times -/
def fixed (off : Int) : Zone where
  toLocal m := if 0 ≤ (m : Int) + off then some ((m : Int) + off).toNat else none
  toUtc m := if 0 ≤ (m : Int) - off then some ((m : Int) - off).toNat else none

end Verif.LocalTime
