import Verif.MathUtils.Model
/-!
# Model of include/YY/Base/Time/{Common,TimeSpan,TickCount,DataTime}.h

`int64_t` values are integers in `[-2^63, 2^63)`, `uint64_t` values are naturals below `2^64`.  `none` is undefined behaviour (signed overflow, division by zero).
The performance counter frequency (`TickCount::GetTicksPerSecond`, TickCount.h 60-74, an operating system constant) is the parameter `f`.
-/
namespace Verif.Time
open Verif.MathUtils (i64 umulDiv64Fast)

/-- conversion `int64_t → uint64_t` -/
def toU (x : Int) : Nat := (x % 2 ^ 64).toNat
/-- conversion `uint64_t → int64_t` (two's complement) -/
def toS (u : Nat) : Int := if u < 2 ^ 63 then u else (u : Int) - 2 ^ 64

inductive Unit where | us | ms | s | min | h | d
deriving DecidableEq

/-- the constants multiplied, in source order (Common.h 10-14, TimeSpan.h 31) -/
def Unit.factors : Unit → List Int
  | .us => [10]
  | .ms => [1000, 10]
  | .s => [1000, 1000, 10]
  | .min => [60, 1000, 1000, 10]
  | .h => [60, 60, 1000, 1000, 10]
  | .d => [24, 60, 60, 1000, 1000, 10]

/-- left-associated signed product `x * f₁ * f₂ …` -/
def chain (x : Int) : List Int → Option Int
  | [] => some x
  | f :: fs => match i64 (x * f) with | none => none | some y => chain y fs

/-- `TimeSpan::FromMicroseconds` … `FromDays` (TimeSpan.h 57-85) -/
def spanFrom (u : Unit) (x : Int) : Option Int := chain x u.factors

/-- `GetTotalMicroseconds` … `GetTotalDays` (TimeSpan.h 92-120): C++ division truncates -/
def spanTotal (u : Unit) (t : Int) : Int := t.tdiv (u.factors.foldl (· * ·) 1)

/-- `+=`, `-=` (TimeSpan.h 160-170) -/
def spanAdd (a b : Int) : Option Int := i64 (a + b)
def spanSub (a b : Int) : Option Int := i64 (a - b)

/-- a comparison operator set -/
structure Cmp (α : Type) where
  eq : α → α → Bool
  ne : α → α → Bool
  lt : α → α → Bool
  le : α → α → Bool
  gt : α → α → Bool
  ge : α → α → Bool

/-- TimeSpan.h 124-133: C++20 (`<=>` and rewritten candidates) -/
def spanCmp20 : Cmp Int := ⟨fun a b => a = b, fun a b => !decide (a = b), fun a b => compare a b = .lt, fun a b => compare a b ≠ .gt, fun a b => compare a b = .gt, fun a b => compare a b ≠ .lt⟩
/-- TimeSpan.h 124-127, 135-158: before C++20 -/
def spanCmp17 : Cmp Int := ⟨fun a b => a = b, fun a b => a ≠ b, fun a b => a < b, fun a b => a ≤ b, fun a b => a ≥ b, fun a b => a ≥ b⟩
/-- TickCount.h 171-205, DataTime.h 98-132, 255-289 -/
def tickCmp20 : Cmp Nat := ⟨fun a b => a = b, fun a b => !decide (a = b), fun a b => compare a b = .lt, fun a b => compare a b ≠ .gt, fun a b => compare a b = .gt, fun a b => compare a b ≠ .lt⟩
def tickCmp17 : Cmp Nat := ⟨fun a b => a = b, fun a b => a ≠ b, fun a b => a < b, fun a b => a ≤ b, fun a b => a > b, fun a b => a ≥ b⟩

/-! ## TickCount -/

/-- ticks per unit as computed by `TickCount::From…` (92-120): a product chain, or a truncated quotient for the sub-second units -/
def tickFrom (f : Int) (u : Unit) (x : Int) : Option Nat :=
  (match u with
   | .us => chain x [f.tdiv 1000000]
   | .ms => chain x [f.tdiv 1000]
   | .s => chain x [f]
   | .min => chain x [f, 60]
   | .h => chain x [f, 60, 60]
   | .d => chain x [f, 60, 60, 24]).map toU

/-- divisor of `TickCount::GetTotal…` (135-167) -/
def tickDiv (f : Int) : Unit → Option Int
  | .us => some (f.tdiv 1000000)
  | .ms => some (f.tdiv 1000)
  | .s => some f
  | .min => chain f [60]
  | .h => chain f [60, 60]
  | .d => chain f [60, 60, 24]

/-- `TickCount::GetTotal…` (135-167): unsigned division -/
def tickTotal (f : Int) (u : Unit) (t : Nat) : Option Nat :=
  match tickDiv f u with
  | none => none
  | some d => if toU d = 0 then none else some (t / toU d)

/-- `operator+=(TimeSpan)` (208-213) -/
def tickAdd (f : Int) (t : Nat) (sp : Int) : Option Nat := (umulDiv64Fast (toU sp) (toU f) 10000000).map fun k => (t + k) % 2 ^ 64
/-- `operator-=(TimeSpan)` (222-227) -/
def tickSub (f : Int) (t : Nat) (sp : Int) : Option Nat := (umulDiv64Fast (toU sp) (toU f) 10000000).map fun k => (t + (2 ^ 64 - k)) % 2 ^ 64

/-- `operator-(TickCount)` (236-242) -/
def tickDiff (f : Int) (a b : Nat) : Option Int :=
  let neg := decide (a < b)
  (umulDiv64Fast (if neg then b - a else a - b) 10000000 (toU f)).map fun (k : Nat) =>
    if neg then -((min k (2 ^ 63 - 1) : Nat) : Int) else ((min k (2 ^ 63 - 1) : Nat) : Int)

/-! ## UtcDataTime / LocalDataTime -/

/-- `FromUnixTimestamp` (DataTime.h 71-79, 226-236), 64-bit `time_t` -/
def fromUnix (t : Int) : Nat := if t ≠ -1 then (toU t * 10000000 + 116444736000000000) % 2 ^ 64 else 2 ^ 64 - 1

/-- `ToUnixTimestamp` (85-94, 242-251) -/
def toUnix (u : Nat) : Int :=
  if u ≥ 2 ^ 63 then -1 else if u < 116444736000000000 then -1 else (((u - 116444736000000000) / 10000000 : Nat) : Int)

/-- `+=`, `-=` TimeSpan, difference (135-164, 292-321) -/
def dateAdd (t : Nat) (sp : Int) : Nat := (t + toU sp) % 2 ^ 64
def dateSub (t : Nat) (sp : Int) : Nat := (t + (2 ^ 64 - toU sp)) % 2 ^ 64
def dateDiff (a b : Nat) : Int := toS ((a + (2 ^ 64 - b)) % 2 ^ 64)

end Verif.Time
