/-!
# Model of the error codes (include/YY/Base/ErrorCode.h), of `Exception` (include/YY/Base/Exception.h) and of `SafeCast` (include/YY/Base/SafeCast.h)

Values are mathematical integers; every conversion to a C type of limited width is written out.  `long` has 32 bits on Windows and 64 bits on
the 64-bit Unix systems; `HRESULT` and `LSTATUS` are `long` (YY.h 213-219).
-/
namespace Verif.ErrCode

/-- the platforms that differ in ErrorCode.h: Windows (`winerror.h`), Unix with 64-bit `long`, Unix with 32-bit `long` -/
inductive Plat where
  | win
  | lp64
  | ilp32
deriving DecidableEq

/-- bits of `long` -/
def Plat.bits : Plat → Nat
  | .win => 32
  | .lp64 => 64
  | .ilp32 => 32

/-- conversion of an integer to a signed type of `b` bits (two's complement) -/
def toSigned (b : Nat) (x : Int) : Int := (x + 2 ^ (b - 1)) % 2 ^ b - 2 ^ (b - 1)

/-- what a `long` can hold -/
def Plat.Long (p : Plat) (x : Int) : Prop := -2 ^ (p.bits - 1) ≤ x ∧ x < 2 ^ (p.bits - 1)

/-- the names defined by ErrorCode.h 22-35 (on Windows by `winerror.h`, line 4) -/
inductive Name where
  | sOk | sFalse
  | invalidArg | outOfMemory | pointer | unexpected | bounds | noInterface | notImpl | fail | pending | abort | notSet
deriving DecidableEq

/-- all of them -/
def Name.all : List Name :=
  [.sOk, .sFalse, .invalidArg, .outOfMemory, .pointer, .unexpected, .bounds, .noInterface, .notImpl, .fail, .pending, .abort, .notSet]

/-- the values of `winerror.h` as unsigned 32-bit patterns -/
def winPattern : Name → Int
  | .sOk => 0
  | .sFalse => 1
  | .invalidArg => 0x80070057
  | .outOfMemory => 0x8007000E
  | .pointer => 0x80004003
  | .unexpected => 0x8000FFFF
  | .bounds => 0x8000000B
  | .noInterface => 0x80004002
  | .notImpl => 0x80004001
  | .fail => 0x80004005
  | .pending => 0x8000000A
  | .abort => 0x80004004
  | .notSet => 0x80070490

/-- the values of ErrorCode.h 22-35 -/
def portable : Name → Int
  | .sOk => 0
  | .sFalse => 0
  | .invalidArg => 1
  | .outOfMemory => 2
  | .pointer => 3
  | .unexpected => 4
  | .bounds => 5
  | .noInterface => 5
  | .notImpl => 5
  | .fail => 5
  | .pending => 5
  | .abort => 5
  | .notSet => 5

/-- the value of a name -/
def value (p : Plat) (n : Name) : Int :=
  match p with
  | .win => toSigned 32 (winPattern n)
  | _ => portable n

/-- `ERROR_CANCELLED` (38; 1223 in `winerror.h`) -/
def errorCancelled : Plat → Int
  | .win => 1223
  | _ => 5

/-- `SUCCEEDED(hr)` (15) -/
def succeeded (hr : Int) : Bool := decide (hr ≥ 0)
/-- `FAILED(hr)` (19) -/
def failed (hr : Int) : Bool := decide (hr < 0)

/-- `HRESULT_From_LSTATUS` (41-50); `__HRESULT_FROM_WIN32` of `winerror.h` is the expression of line 48.  The bitwise expression is only
evaluated for positive statuses. -/
def fromStatus (p : Plat) (s : Int) : Int :=
  if s = 0 then value p .sOk
  else if s ≤ 0 then s
  else toSigned p.bits ((s.toNat &&& 0x0000FFFF) ||| (7 <<< 16) ||| 0x80000000 : Nat)

/-- `DosErrorFormNtStatus` (54-81, Windows only): `rtl` is `RtlNtStatusToDosError`, `none` if `ntdll` does not export it -/
def dosError (rtl : Option (Int → Int)) (status : Int) : Int :=
  if status = 0 then 0
  else match rtl with
    | none => value .win .fail
    | some f => f status

/-- the error code of `Exception()` / `Exception(message)` (Exception.h 25): `0x8000FFFFL` converted to `HRESULT` -/
def exceptionDefault (p : Plat) : Int := toSigned p.bits 0x8000FFFF

/-- the error code of `OperationCanceledException` (Exception.h 54-57) -/
def canceledCode (p : Plat) : Int := fromStatus p (errorCancelled p)

/-! ## Users of the codes -/

/-- `Array`, `String`: `if (FAILED(_hr)) throw Exception(_hr);` (Array.h 1025, 1410; String.h 179, 566): does a call that returned `n` throw? -/
def throwsOn (p : Plat) (n : Name) : Bool := failed (value p n)

/-- `TaskEntry::Wakeup` on a task that is still pending, seen by `WaitTask` (TaskRunner.cpp 41-68): `hr` is set to the code by a compare
exchange against `E_PENDING`; a waiter goes on sleeping while `hr == E_PENDING`.  Does the waiter wake up? -/
def wakes (p : Plat) (code : Int) : Bool := decide (code ≠ value p .pending)

/-! ## SafeCast -/

/-- outcome of `SafeCast(in, pOut)`: the returned value and what `*pOut` is afterwards (`none` = untouched) -/
structure CastRes where
  ok : Bool
  out : Option Nat
deriving DecidableEq

/-- `SafeCast(int32_t → uint8_t)` (SafeCast.h 30-39); `hasOut` = `_pOut != nullptr` -/
def castU8 (x : Int) (hasOut : Bool) : CastRes :=
  if x > 255 ∨ x < 0 then ⟨false, none⟩
  else ⟨true, if hasOut then some (x % 256).toNat else none⟩

/-- `SafeCast(uint32_t → uint16_t)` (SafeCast.h 41-50) -/
def castU16 (x : Int) (hasOut : Bool) : CastRes :=
  if x > 65535 ∨ x < 0 then ⟨false, none⟩
  else ⟨true, if hasOut then some (x % 65536).toNat else none⟩

/-- `SafeCast<Out>(in)` (SafeCast.h 18-28): `Except.error` = the exception with `E_INVALIDARG`.  The local is read only after a successful
cast with a pointer to it. -/
def castOrThrow (p : Plat) (cast : Int → Bool → CastRes) (x : Int) : Except Int (Option Nat) :=
  let r := cast x true
  if r.ok then .ok r.out else .error (value p .invalidArg)

end Verif.ErrCode
