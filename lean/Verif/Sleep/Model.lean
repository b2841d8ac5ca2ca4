/-!
# Model of `TaskRunner::SleepAsync` (src/YY/Base/Threading/TaskRunner.cpp 183-215)

One call of `SleepAsync` with everything that can happen to the task it returns: time passes, the token is cancelled, the task itself is cancelled, the runner
stops, the timer fires and its callback calls `Resolve` (Async.h 436-471), and any number of threads call `WaitTask` (139-161).

Simplifications: completing an operation (compare-exchange of the status, result, `hr`, waking, calling the handlers) is one step – its interleavings are C49 and
C50; the timer fires at its time or later (C40, C41 treat the wheel); a callback in the queue of a runner that goes on is run (C45, C47, C64); `WaitOnAddress` is
C35; memory is available.  Times are milliseconds and the delay is added without rounding (C62).
-/
namespace Verif.Sleep

/-- `AsyncStatus` (Async.h 21-31) -/
inductive Status where
  | started | completed | canceled
deriving DecidableEq

/-- the member `hr` (Async.h 36) -/
inductive Hr where
  | pending | ok | cancelled
deriving DecidableEq

/-- the result of the sleep, an `HRESULT` -/
inductive Val where
  | ok | unexpected
deriving DecidableEq

/-- the timer made by `PostDelayTask` (244-254) -/
inductive Timer where
  /-- there is none: never made, run, refused or thrown away with its callback -/
  | gone
  | armed (due : Nat)
  /-- in the task queue of the runner -/
  | queued
deriving DecidableEq

/-- a thread in `WaitTask` without limit -/
inductive Waiter where
  | idle
  /-- in `WaitOnAddress` (Async.h 160) -/
  | asleep
  | back (r : Bool)
deriving DecidableEq

structure St where
  clock : Nat
  /-- the token given to the call: has cancellation been requested? -/
  token : Option Bool
  status : Status
  hr : Hr
  val : Option Val
  /-- `NotifyCompletedHandlers` has called the handlers: continuations and awaiting coroutines go on -/
  notified : Bool
  timer : Timer
  /-- the runner takes tasks and runs them -/
  up : Bool
  waiter : Nat → Waiter

/-- `IsCancellationRequested` of the token, if there is one -/
def requested (s : St) : Bool := s.token == some true

/-- `IsCanceled` (Async.h 119-127) -/
def isCanceled (s : St) : Bool :=
  if s.status = .completed then false else s.status == .canceled || requested s

/-- `Cancel` (Async.h 108-117) -/
def cancel (s : St) : St :=
  if s.status = .started then { s with status := .canceled, hr := .cancelled, notified := true } else s

/-- `Resolve` (Async.h 436-471) -/
def resolve (s : St) (v : Val) : St :=
  if isCanceled s then cancel s
  else if s.status = .started then { s with status := .completed, hr := .ok, val := some v, notified := true }
  else s

/-- the operation after its construction -/
def fresh (clock : Nat) (token : Option Bool) (up : Bool) : St :=
  { clock, token, status := .started, hr := .pending, val := none, notified := false, timer := .gone, up, waiter := fun _ => .idle }

/-- `PostDelayTask` (244-254) with `SetTimerInternal` (365-382): less than one millisecond is posted at once, which a stopped runner refuses; else the timer is
armed.  The result is not looked at (209-212). -/
def postDelay (s : St) (delay : Nat) : St :=
  if delay = 0 then (if s.up then { s with timer := .queued } else s)
  else { s with timer := .armed (s.clock + delay) }

/-- `SleepAsync(delay, token)` (183-215); `runner`: is there a current runner, and does it still take tasks? -/
def sleep (clock delay : Nat) (token : Option Bool) (runner : Option Bool) : St :=
  if token = some true then cancel (fresh clock token (runner == some true))
  else match runner with
    | none => resolve (fresh clock token false) .unexpected
    | some up => postDelay (fresh clock token up) delay

/-- what can happen afterwards -/
inductive Step : St → St → Prop
  | tick (s : St) : Step s { s with clock := s.clock + 1 }
  /-- somebody cancels the token -/
  | token (s : St) (h : s.token = some false) : Step s { s with token := some true }
  /-- somebody calls `Cancel` on the task -/
  | cancel (s : St) : Step s (cancel s)
  /-- the runner is stopped -/
  | stop (s : St) : Step s { s with up := false }
  /-- the timer's time has come: `PostTaskInternal` -/
  | fire (s : St) (due : Nat) (h : s.timer = .armed due) (hd : due ≤ s.clock) :
      Step s { s with timer := if s.up then .queued else .gone }
  /-- the queue of a stopped runner is cleaned up (ThreadTaskRunnerImpl.cpp `CleanupTaskQueue`): the entry is cancelled and the callback destroyed -/
  | cleanup (s : St) (h : s.timer = .queued) (hu : s.up = false) : Step s { s with timer := .gone }
  /-- the timers of a stopped thread runner are thrown away -/
  | drop (s : St) (due : Nat) (h : s.timer = .armed due) (hu : s.up = false) : Step s { s with timer := .gone }
  /-- the callback (209-212) -/
  | run (s : St) (h : s.timer = .queued) : Step s (resolve { s with timer := .gone } .ok)
  /-- `WaitTask` (139-161) begins -/
  | wait (s : St) (t : Nat) (h : s.waiter t = .idle) :
      Step s { s with waiter := fun u => if u = t then
        (if isCanceled s then .back false else if s.hr = .pending then .asleep else .back true) else s.waiter u }
  /-- `WaitOnAddress` returns -/
  | wake (s : St) (t : Nat) (h : s.waiter t = .asleep) (hh : s.hr ≠ .pending) :
      Step s { s with waiter := fun u => if u = t then .back true else s.waiter u }

/-- an execution -/
inductive Steps : St → St → Prop
  | refl (s : St) : Steps s s
  | tail {s t u : St} : Steps s t → Step t u → Steps s u

end Verif.Sleep
