/-!
# Model of the way of a wait: `WaitForObjectAsync` and `CreateWait`

`TaskRunner::WaitForObjectAsync` (src/YY/Base/Threading/TaskRunner.cpp 218-241), `TaskRunner::CreateWait` (330-363), `TaskRunner::SetWaitInternal` (384-393), `Wait::OnCompleted` (509-519),
`Wait::RunTask` (521-531), `ThreadTaskRunnerImpl::SetWaitInternal` (ThreadTaskRunnerImpl.cpp 331-358) with `PostTaskInternal` (272-279) for calls from other threads, and
`TaskRunnerDispatchForWindows::SetWaitInternal` (TaskRunnerDispatchImpl.cpp 117-174).

Where a wait is registered and what becomes of it, as decisions; the registrations of a thread are C54 and C103, the references of the thread pool C71, the rounds of a repeating wait C72.
Simplifications: a tick is 100 ns; no allocation fails; nobody cancels.
-/
namespace Verif.WaitObj

/-- what the system knows of the object behind a handle at some moment -/
inductive Obj where
  /-- not signalled -/
  | quiet
  | signalled
  /-- a mutex whose owner ended without releasing it -/
  | abandoned
  /-- no object, or one that cannot be waited for -/
  | bad
deriving DecidableEq

/-- whose `SetWaitInternal` is called, and from where -/
inductive Runner where
  /-- no runner (240: the dispatcher), or a sequenced or parallel one (384-393) -/
  | pool
  /-- a thread task runner, on its own thread; `n` handles are registered, none of them this one -/
  | own (n : Nat)
  /-- a thread task runner, from another thread; `n` handles are registered when the posted task runs; `stopped` is `bStopWakeup` -/
  | other (n : Nat) (stopped : Bool)
deriving DecidableEq

/-- what has become of the operation -/
inductive Fate where
  /-- status `Completed` with this result -/
  | resolved (code : Nat)
  /-- status `Error` -/
  | error
  /-- pending, registered with the thread's manager -/
  | thread
  /-- pending, registered with the thread pool with so many milliseconds at most -/
  | pool (limit : Nat)
  /-- pending, registered nowhere -/
  | nowhere
deriving DecidableEq

/-- `INVALID_HANDLE_VALUE` (64 bit) -/
@[irreducible] def invalidHandle : Nat := 2 ^ 64 - 1

/-- `TimeSpan::GetTotalMilliseconds` -/
def ms (d : Int) : Int := d.tdiv 10000

/-- `UINT32_MAX` -/
@[irreducible] def u32max : Nat := 2 ^ 32 - 1

/-- `WaitForSingleObject(h, 0)` -/
def single : Obj → Nat
  | .quiet => 0x102
  | .signalled => 0
  | .abandoned => 0x80
  | .bad => 0xFFFFFFFF

/-- `TaskRunnerDispatchForWindows::SetWaitInternal` (117-174): `left` is the time to the limit (132), `reg` whether `RegisterWaitForSingleObject` succeeds -/
def dispatch (o : Obj) (left : Int) (reg : Bool) : Fate :=
  if ms left ≤ 0 then .resolved (single o)
  else if reg then .pool (min (ms left) u32max).toNat
  else .error

/-- `ThreadTaskRunnerImpl::SetWaitInternal` on its thread (345-357): 63 handles fit, further ones go to the pool -/
def ownSet (n : Nat) (o : Obj) (left : Int) (reg : Bool) : Fate := if 63 ≤ n then dispatch o left reg else .thread

/-- `SetWaitInternal` of the runner (384-393, 331-358); a stopped runner refuses the posted task (`PostTaskInternal` 275-279) and nobody looks at the result -/
def setWait (r : Runner) (o : Obj) (left : Int) (reg : Bool) : Fate :=
  match r with
  | .pool => dispatch o left reg
  | .own n => ownSet n o left reg
  | .other n stopped => if stopped then .nowhere else ownSet n o left reg

/-- `WaitForObjectAsync` (218-241) -/
def waitForObject (r : Runner) (h : Nat) (o : Obj) (left : Int) (reg : Bool) : Fate :=
  if h = 0 ∨ h = invalidHandle then .resolved 0xFFFFFFFF else setWait r o left reg

/-- `CreateWait` (330-363): `none` is `nullptr` -/
def createWait (r : Runner) (h : Nat) (callback : Bool) (o : Obj) (left : Int) (reg : Bool) : Option Fate :=
  if h = 0 ∨ h = invalidHandle then none
  else if callback = false then none
  else some (setWait r o left reg)

/-- what ends a pending wait -/
inductive End where
  /-- the object is found in this state -/
  | object (o : Obj)
  /-- the limit is reached and the object is not signalled -/
  | limit
deriving DecidableEq

/-- a pending wait ends.  With the manager of a thread: the results of `ProcessingWaitTasks` (see C103).  With the pool: the callback (144-160) is told only whether the limit was reached. -/
def finish (f : Fate) (e : End) : Fate :=
  match f with
  | .thread => .resolved (match e with
    | .object o => single o
    | .limit => 0x102)
  | .pool _ => .resolved (match e with
    | .object _ => 0
    | .limit => 0x102)
  | f => f

/-- the argument with which the callback of a `Wait` is called, if it is: `OnCompleted` (509-519) posts the task only for status `Completed`, `RunTask` (531) passes the result on -/
def callbackArg : Fate → Option Nat
  | .resolved c => some c
  | _ => none

end Verif.WaitObj
