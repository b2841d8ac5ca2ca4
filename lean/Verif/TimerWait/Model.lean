/-!
# Model of cancelling and waiting for timers and delayed tasks

`TaskEntry::Wakeup`, `WaitTask`, `Cancel`, `RunTask` and `Timer::RunTask`, `Timer::Cancel` (src/YY/Base/Threading/TaskRunner.cpp 41-161), the three
`SetTimerInternal` (TaskRunner.cpp 365-382, ThreadTaskRunnerImpl.cpp 303-329, ThreadTaskRunnerProxyImpl.h 177-209), the pool timers and `DispatchTask`
(TaskRunnerDispatchImpl.cpp 56-115, TaskRunnerDispatchImpl.h 42-69) and `PostTaskInternal` of the runners, for one timer.

Every write of `hr` and every test of the cancel flag is a step of its own.  Simplifications: sequentially consistent memory; `CompareExchange` with the
`WakeByAddressAll` behind it is one step (an extra wake-up changes nothing: `WaitTask` has `WaitOnAddress` return the same way); `WaitOnAddress` does
not return without reason (that is C66); an entry in a queue is popped at most once (C44, C63, C65) and eventually run or cleaned up; callbacks end
normally or with `OperationCanceledException`; references are C67.
-/
namespace Verif.TimerWait

/-- the runner that owns the timer: `SequencedTaskRunner` and `ParallelTaskRunner` use timers of the thread pool, `ThreadTaskRunnerImpl` and
`ThreadTaskRunnerProxyImpl` a timing wheel -/
inductive Kind where
  | pool | thread | proxy
deriving DecidableEq

/-- values of `TaskEntry::hr`; `failed` is the error of line 109 of TaskRunnerDispatchImpl.cpp -/
inductive Hr where
  | pending | ok | cancelled | failed
deriving DecidableEq

/-- where the timer is -/
inductive Pc where
  /-- in `SetTimerInternal`, before the cancel flag is tested; `hr = E_PENDING` (368, 306) is next -/
  | arm
  /-- in `SetTimerInternal`, the cancel flag is tested next (370, 308, 180) -/
  | check
  /-- in a closure on its way to the thread of the runner (320-323, 189-192) -/
  | hop
  /-- in the timing wheel, or registered with the system -/
  | registered
  /-- the system has called back; `DispatchTask` tests the cancel flag next (TaskRunnerDispatchImpl.h 49) -/
  | disp
  /-- at the beginning of `PostTaskInternal`; `hr = E_PENDING` is next (SequencedTaskRunnerImpl.cpp 64, ThreadTaskRunnerImpl.cpp 274,
  ParallelTaskRunnerImpl.hpp 224) -/
  | post
  /-- in `PostTaskInternal`, the runner is accepting it or not -/
  | post2
  | queued
  /-- `RunTask` tests the cancel flag next (83, 103) -/
  | run
  /-- in the callback -/
  | cb
  /-- the callback is over; `Wakeup` (97, 125) is next.  `again`: it returned `true` -/
  | ran (r : Hr) (again : Bool)
  /-- the timer is not known to any runner -/
  | over
deriving DecidableEq

/-- the thread that has won the cancel flag (72) -/
inductive Canc where
  /-- the flag is not set -/
  | idle
  /-- the flag is set, `Wakeup` (74) is next -/
  | set
  | done
deriving DecidableEq

structure St where
  pc : Pc := .arm
  hr : Hr := .pending
  c : Canc := .idle
  /-- threads sleeping in `WaitTask` (67) -/
  waiting : Nat := 0
  /-- ghost: waits that have returned -/
  returned : Nat := 0
  /-- ghost: starts of the callback -/
  started : Nat := 0
  /-- ghost: normal ends of the callback -/
  finished : Nat := 0
deriving DecidableEq

/-- `TaskEntry::IsCanceled` -/
def St.canceled (s : St) : Bool := decide (s.c ≠ .idle)

/-- `TaskEntry::Wakeup` (41-47) -/
def wakeup (h : Hr) (s : St) : St :=
  if s.hr = .pending then { s with hr := h, waiting := 0, returned := s.returned + s.waiting } else s

/-- who moves: a user who waits, a user who cancels, the library -/
inductive Lab where
  | wait | cancel | work
deriving DecidableEq

/-- One step.  `win`: the canceller's `Wakeup` may fall between the test of the cancel flag and the `hr = E_PENDING` of `PostTaskInternal`; `drop`: a runner
may be destroyed with the closure of `hop` still in its queue. -/
inductive Step (k : Kind) (win drop : Bool) : Lab → St → St → Prop
  /-- `WaitTask` (49-68): `WaitOnAddress` sleeps if `hr` is `E_PENDING` -/
  | wait (s : St) : s.hr = .pending → Step k win drop .wait s { s with waiting := s.waiting + 1 }
  /-- `WaitTask` returns at once -/
  | waitNow (s : St) : s.hr ≠ .pending → Step k win drop .wait s { s with returned := s.returned + 1 }
  /-- `Cancel` (72): the winner -/
  | cancel (s : St) : s.c = .idle → Step k win drop .cancel s { s with c := .set }
  /-- `Cancel` (74) -/
  | cancelWake (s : St) : s.c = .set → (win = false → s.pc ≠ .post) → Step k win drop .work s { wakeup .cancelled s with c := .done }
  /-- `Timer::Cancel` (146-158): the registration with the system is deleted -/
  | unregister (s : St) : k = .pool → s.pc = .registered → s.canceled = true → Step k win drop .work s { s with pc := .over }
  /-- 368, 306 -/
  | arm (s : St) : s.pc = .arm → k ≠ .proxy → Step k win drop .work s { s with pc := .check, hr := .pending }
  /-- the proxy does not write `hr` -/
  | armProxy (s : St) : s.pc = .arm → k = .proxy → Step k win drop .work s { s with pc := .check }
  /-- 370-374, 308-312 -/
  | checkCancel (s : St) : s.pc = .check → s.canceled = true → k ≠ .proxy →
      Step k win drop .work s { wakeup .cancelled s with pc := .over }
  /-- ThreadTaskRunnerProxyImpl.h 180-183 -/
  | checkCancelProxy (s : St) : s.pc = .check → s.canceled = true → k = .proxy → Step k win drop .work s { s with pc := .over }
  /-- 375-378, 313-316: the time has come already -/
  | checkDue (s : St) : s.pc = .check → s.canceled = false → k ≠ .proxy → Step k win drop .work s { s with pc := .post }
  /-- the timer is entered into the wheel, or registered with the system (380; TaskRunnerDispatchImpl.cpp 81-105) -/
  | checkSet (s : St) : s.pc = .check → s.canceled = false → Step k win drop .work s { s with pc := .registered }
  /-- TaskRunnerDispatchImpl.cpp 74-78: meanwhile the time has come -/
  | checkDisp (s : St) : s.pc = .check → s.canceled = false → k = .pool → Step k win drop .work s { s with pc := .disp }
  /-- ThreadTaskRunnerTimerManger.h 72-75 -/
  | checkRun (s : St) : s.pc = .check → s.canceled = false → k ≠ .pool → Step k win drop .work s { s with pc := .run }
  /-- TaskRunnerDispatchImpl.cpp 107-113 -/
  | checkFail (s : St) : s.pc = .check → s.canceled = false → k = .pool → Step k win drop .work s { wakeup .failed s with pc := .over }
  /-- 318-324, 187-193: called from another thread -/
  | checkHop (s : St) : s.pc = .check → s.canceled = false → k ≠ .pool → Step k win drop .work s { s with pc := .hop }
  /-- the closure runs -/
  | hop (s : St) : s.pc = .hop → Step k win drop .work s { s with pc := .registered }
  | hopRun (s : St) : s.pc = .hop → Step k win drop .work s { s with pc := .run }
  /-- `CleanupTaskQueue` (433-442) wakes the entry of the closure and destroys it -/
  | hopDrop (s : St) : drop = true → s.pc = .hop → Step k win drop .work s { s with pc := .over }
  /-- the time has come: the wheel calls `DispatchTimerTask` (376-380, ThreadTaskRunnerProxyImpl.h 211-215) -/
  | fire (s : St) : s.pc = .registered → k ≠ .pool → Step k win drop .work s { s with pc := .run }
  /-- the time has come: the system calls back (TaskRunnerDispatchImpl.cpp 86-100) -/
  | firePool (s : St) : s.pc = .registered → k = .pool → Step k win drop .work s { s with pc := .disp }
  /-- the wheel is destroyed (`Clear`, ThreadTaskRunnerTimerManger.h 22-30): `Cancel` and `Wakeup` -/
  | clear (s : St) : s.pc = .registered → k ≠ .pool → s.c = .idle → Step k win drop .work s { wakeup .cancelled s with pc := .over, c := .done }
  | clearLate (s : St) : s.pc = .registered → k ≠ .pool → s.c ≠ .idle → Step k win drop .work s { wakeup .cancelled s with pc := .over }
  /-- TaskRunnerDispatchImpl.h 49-50, 68 -/
  | dispCancel (s : St) : s.pc = .disp → s.canceled = true → Step k win drop .work s { wakeup .cancelled s with pc := .over }
  /-- the owner is gone (60-62, 68) -/
  | dispGone (s : St) : s.pc = .disp → s.canceled = false → Step k win drop .work s { wakeup .cancelled s with pc := .over }
  /-- 64 -/
  | disp (s : St) : s.pc = .disp → s.canceled = false → Step k win drop .work s { s with pc := .post }
  /-- `hr = E_PENDING` of `PostTaskInternal` -/
  | post (s : St) : s.pc = .post → Step k win drop .work s { s with pc := .post2, hr := .pending }
  /-- the runner is stopped: `Wakeup` and return -/
  | refuse (s : St) : s.pc = .post2 → Step k win drop .work s { wakeup .cancelled s with pc := .over }
  | accept (s : St) : s.pc = .post2 → Step k win drop .work s { s with pc := .queued }
  | pop (s : St) : s.pc = .queued → Step k win drop .work s { s with pc := .run }
  /-- `CleanupTaskQueue` -/
  | cleanup (s : St) : s.pc = .queued → Step k win drop .work s { wakeup .cancelled s with pc := .over }
  /-- 83-84, 103-104 -/
  | runCancel (s : St) : s.pc = .run → s.canceled = true → Step k win drop .work s { s with pc := .over }
  | run (s : St) : s.pc = .run → s.canceled = false → Step k win drop .work s { s with pc := .cb, started := s.started + 1 }
  /-- the callback ends normally (89, 117) -/
  | cbOk (s : St) (again : Bool) : s.pc = .cb → Step k win drop .work s { s with pc := .ran .ok again, finished := s.finished + 1 }
  /-- the callback throws `OperationCanceledException` (91-95, 119-123) -/
  | cbThrow (s : St) : s.pc = .cb → Step k win drop .work s { s with pc := .ran .cancelled false }
  /-- 97, 125, 138 -/
  | ranEnd (s : St) (r : Hr) : s.pc = .ran r false → Step k win drop .work s { wakeup r s with pc := .over }
  /-- 125-135 -/
  | ranAgain (s : St) (r : Hr) : s.pc = .ran r true → Step k win drop .work s { wakeup r s with pc := .arm }
  /-- 131-132: the owner is gone -/
  | ranGone (s : St) (r : Hr) : s.pc = .ran r true → Step k win drop .work s { wakeup r s with pc := .over }

/-- a new timer: `hr` is `E_PENDING` (TaskRunner.h 54) -/
def init : St := {}

inductive Reach (k : Kind) (win drop : Bool) : St → Prop
  | init : Reach k win drop init
  | step {l s t} : Reach k win drop s → Step k win drop l s t → Reach k win drop t

/-- any further execution -/
inductive Steps (k : Kind) (win drop : Bool) : St → St → Prop
  | refl (s : St) : Steps k win drop s s
  | tail {l s t u} : Steps k win drop s t → Step k win drop l t u → Steps k win drop s u

/-- an execution in which `hr` stays `E_PENDING`, with the number of its steps other than waits -/
inductive Idle (k : Kind) (win drop : Bool) : St → Nat → St → Prop
  | refl (s : St) : s.hr = .pending → Idle k win drop s 0 s
  | wait {s t u n} : Idle k win drop s n t → Step k win drop .wait t u → u.hr = .pending → Idle k win drop s n u
  | move {l s t u n} : Idle k win drop s n t → l ≠ .wait → Step k win drop l t u → u.hr = .pending → Idle k win drop s (n + 1) u

end Verif.TimerWait
