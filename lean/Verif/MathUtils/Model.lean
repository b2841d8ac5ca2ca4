/-!
# Model of include/YY/Base/Utils/MathUtils.h

`uint64_t` values are natural numbers below `2^64`; each operation reduces explicitly where C++ does.
`none` is undefined behaviour or a processor fault (division by zero, quotient overflow of the 128-bit division, signed overflow).
-/
namespace Verif.MathUtils

/-- portable `_umul128` (18-33): high and low word -/
def umul128 (a b : Nat) : Nat × Nat :=
  let al := a % 2 ^ 32
  let ah := a / 2 ^ 32 % 2 ^ 32
  let bl := b % 2 ^ 32
  let bh := b / 2 ^ 32 % 2 ^ 32
  let low := al * bl % 2 ^ 64
  let mid1 := al * bh % 2 ^ 64
  let mid2 := ah * bl % 2 ^ 64
  let highT := ah * bh % 2 ^ 64
  let carry := (low / 2 ^ 32 + mid1 % 2 ^ 32 + mid2 % 2 ^ 32) % 2 ^ 64
  ((highT + mid1 / 2 ^ 32 + mid2 / 2 ^ 32 + carry / 2 ^ 32) % 2 ^ 64, (low % 2 ^ 32) ||| (carry * 2 ^ 32 % 2 ^ 64))

/-- portable `_udiv128` (40-61): quotient (low 64 bits, `uint32_t` digits) and remainder -/
def udiv128 (hi lo d : Nat) : Option (Nat × Nat) :=
  if d = 0 then none
  else
    let r := hi / 2 ^ 32
    let r := r % d
    let r := (r * 2 ^ 32 % 2 ^ 64) ||| (hi % 2 ^ 32)
    let r := r % d
    let r := (r * 2 ^ 32 % 2 ^ 64) ||| (lo / 2 ^ 32)
    let q1 := r / d % 2 ^ 32
    let r := r % d
    let r := (r * 2 ^ 32 % 2 ^ 64) ||| (lo % 2 ^ 32)
    let q0 := r / d % 2 ^ 32
    some (q1 * 2 ^ 32 + q0, r % d)

/-- the x64 instructions: `mul` … -/
def hwMul (a b : Nat) : Nat × Nat := (a * b / 2 ^ 64, a * b % 2 ^ 64)
/-- … and `div`, which faults if the divisor is zero or the quotient needs more than 64 bits -/
def hwDiv (hi lo d : Nat) : Option (Nat × Nat) :=
  if d ≤ hi then none else some ((hi * 2 ^ 64 + lo) / d, (hi * 2 ^ 64 + lo) % d)

/-- the tail of `UMulDiv64` (73-82) -/
def roundUp (x : Nat × Nat) (c : Nat) : Nat :=
  if x.2 ≠ 0 then if x.2 * 2 % 2 ^ 64 ≥ c then (x.1 + 1) % 2 ^ 64 else x.1 else x.1

/-- `UMulDiv64` (64-83) with the portable helpers -/
def umulDiv64Port (a b c : Nat) : Option Nat :=
  let p := umul128 a b
  (udiv128 p.1 p.2 c).map (roundUp · c)

/-- `UMulDiv64` (64-83) on x64 -/
def umulDiv64X64 (a b c : Nat) : Option Nat :=
  let p := hwMul a b
  (hwDiv p.1 p.2 c).map (roundUp · c)

/-- `UMulDiv64Fast` (92-119) -/
def umulDiv64Fast (a num den : Nat) : Option Nat :=
  if num = 0 then some 0
  else if num > den then
    if den = 0 then none else some (a * (num / den) % 2 ^ 64)
  else if num < den then
    let d := den / num
    some (if a % d * 2 % 2 ^ 64 ≥ d then (a / d + 1) % 2 ^ 64 else a / d)
  else some a

/-- result of a signed 64-bit operation: overflow is undefined -/
def i64 (x : Int) : Option Int := if -2 ^ 63 ≤ x ∧ x < 2 ^ 63 then some x else none

/-- `_nX *= -1` if negative, toggling `_bNegative` -/
def absI (x : Int) (neg : Bool) : Option (Int × Bool) := if x < 0 then (i64 (-x)).map (·, !neg) else some (x, neg)

/-- `return _bNegative ? _nRet * -1 : _nRet` (176) -/
def fin (neg : Bool) (r : Int) : Option Int := if neg then i64 (-r) else some r

/-- the rounding division (164-169) and the return -/
def divRound (a d : Int) (neg : Bool) : Option Int :=
  match i64 (a % d * 2) with
  | none => none
  | some t => if t ≥ d then match i64 (a / d + 1) with | none => none | some r => fin neg r else fin neg (a / d)

/-- `MulDiv64Fast` (128-177) -/
def mulDiv64Fast (a num den : Int) : Option Int :=
  if num = 0 then some 0
  else
    match absI num false with
    | none => none
    | some (num, neg) =>
      match absI den neg with
      | none => none
      | some (den, neg) =>
        if num > den then
          if den = 0 then none
          else match i64 (a * (num / den)) with
            | none => none
            | some r => fin neg r
        else if num < den then
          match absI a neg with
          | none => none
          | some (a, neg) => divRound a (den / num) neg
        else fin neg a

end Verif.MathUtils
