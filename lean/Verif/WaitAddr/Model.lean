import Verif.Time.Model
/-!
# Model of `WaitEqualOnAddress` (src/YY/Base/Sync/Sync.cpp 16-93)

The surroundings are arbitrary: `mem i` are the bytes at the address at the `i`-th load (other threads may write anything in between), `now i` the tick count of the
`i`-th clock query, `woken i` the answer of the `i`-th call of the system's `WaitOnAddress`.  The function is run for at most `fuel` rounds of its loop;
`none` as a result means that it is still waiting.  The list of events records what the call did.
-/
namespace Verif.WaitAddr
open Verif.Time

structure Env where
  mem : Nat → List (BitVec 8)
  start : Nat
  now : Nat → Nat
  woken : Nat → Bool
  /-- ticks per second (`TickCount::GetFrequency`) -/
  freq : Int

inductive Ev where
  | load (bytes : List (BitVec 8))
  /-- blocked with this many milliseconds as limit; 0xFFFFFFFF means no limit -/
  | wait (ms : Nat)
deriving DecidableEq

/-- the integer stored in little-endian bytes (the loads `*_pAddress`, `*(Type*)(CompareAddress)`) -/
def le : List (BitVec 8) → Nat
  | [] => 0
  | b :: bs => b.toNat + 256 * le bs

/-- the endless loop (28-35) -/
def waitInf (env : Env) (n target : Nat) : Nat → Nat → List Ev × Option Bool
  | 0, _ => ([], none)
  | fuel + 1, i =>
    let v := (env.mem i).take n
    if le v = target then ([.load v], some true)
    else
      let (es, r) := waitInf env n target fuel (i + 1)
      (.load v :: .wait 0xFFFFFFFF :: es, r)

/-- the milliseconds handed to `WaitOnAddress` (52-53); a clock difference out of range counts as zero -/
def remaining (env : Env) (expire now : Nat) : Nat :=
  match tickDiff env.freq expire now with
  | none => 0
  | some d => let ms := spanTotal .ms d; if ms ≤ 0 then 0 else min ms.toNat 0xFFFFFFFF

/-- the timed loop (42-55) -/
def waitTimed (env : Env) (n target expire : Nat) : Nat → Nat → List Ev × Option Bool
  | 0, _ => ([], none)
  | fuel + 1, i =>
    let v := (env.mem i).take n
    if le v = target then ([.load v], some true)
    else if env.now i > expire then ([.load v], some false)
    else
      let ms := remaining env expire (env.now i)
      if env.woken i then
        let (es, r) := waitTimed env n target expire fuel (i + 1)
        (.load v :: .wait ms :: es, r)
      else ([.load v, .wait ms], some false)

/-- the template (16-59); `span` in units of 100 ns, `2^63 - 1` is `TimeSpan::GetMax()` -/
def waitT (env : Env) (n target : Nat) (span : Int) (fuel : Nat) : List Ev × Option Bool :=
  if spanTotal .ms span ≤ 0 then
    let v := (env.mem 0).take n
    ([.load v], some (le v = target))
  else if span = 2 ^ 63 - 1 then waitInf env n target fuel 0
  else match tickAdd env.freq env.start span with
    | none => ([], none)
    | some expire => waitTimed env n target expire fuel 0

/-- `WaitEqualOnAddress(Address, CompareAddress, AddressSize, ...)` (61-93) -/
def waitEqual (env : Env) (cmp : List (BitVec 8)) (size : Nat) (span : Int) (fuel : Nat) : List Ev × Option Bool :=
  if size = 1 ∨ size = 2 ∨ size = 4 ∨ size = 8 then waitT env size (le (cmp.take size)) span fuel else ([], some false)

end Verif.WaitAddr
