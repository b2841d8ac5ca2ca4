import Verif.Time.Model
/-!
# Model of the time arithmetic of delays and time limits

src/YY/Base/Threading/TaskRunner.cpp 20-34, 244-254, 365-382, TaskRunnerDispatchImpl.cpp 56-115, TaskRunnerImpl.cpp 23-41.

Built on `Verif.Time` (TickCount.h, TimeSpan.h, MathUtils.h): a `TickCount` is a natural number below `2^64`, a `TimeSpan` an integer number of 100 ns, `f` is the frequency of the performance counter.
`none` is undefined behaviour (it does not occur for `f > 0`).
-/
namespace Verif.Delay
open Verif.Time

/-- `UINT32_MAX` -/
@[irreducible] def u32max : Nat := 4294967295

/-- `TickCount::GetMax()` (TickCount.h 50-53) -/
def tickMax : Nat := 2 ^ 64 - 1

/-- `PostDelayTask` (TaskRunner.cpp 246): the time the task is due; also 114 and 322 for repeating timers -/
def deadline (f : Int) (now : Nat) (after : Int) : Option Nat := tickAdd f now after

/-- `GetTimeout` (TaskRunner.cpp 20-34) -/
def getTimeout (f : Int) (now : Nat) (span : Int) : Option Nat :=
  if span ≤ 0 then some 0
  else match spanFrom .ms u32max with
    | none => none
    | some m => if span ≥ m then some tickMax else tickAdd f now span

/-- the test of `SetTimerInternal` (TaskRunner.cpp 375, ThreadTaskRunnerImpl.cpp 313): is the task posted at once? -/
def postNow (f : Int) (now exp : Nat) : Option Bool :=
  if exp = 0 then some true else (tickDiff f exp now).map fun d => decide (spanTotal .ms d ≤ 0)

/-- what `TaskRunnerDispatchImpl::SetTimerInternal` (73-103) asks of the system: nothing (dispatched at once), or a timer of so many milliseconds -/
inductive Due where
  | now
  | inMs (ms : Nat)
deriving DecidableEq

/-- `TaskRunnerDispatchImpl::SetTimerInternal` (72-103) -/
def poolDue (f : Int) (now exp : Nat) : Option Due :=
  (tickDiff f exp now).map fun d =>
    if spanTotal .ms d ≤ 0 then .now else .inMs (min (spanTotal .ms d) u32max).toNat

/-- `GetWaitTimeSpan` (TaskRunnerImpl.cpp 23-41); `UINT32_MAX` is "without limit" -/
def waitSpan (f : Int) (now wake : Nat) : Option Nat :=
  if wake = tickMax then some u32max
  else (tickDiff f wake now).map fun d =>
    if d ≤ 0 then 1
    else if spanTotal .ms d ≥ u32max then u32max
    else (max (spanTotal .ms d) 1).toNat

end Verif.Delay
