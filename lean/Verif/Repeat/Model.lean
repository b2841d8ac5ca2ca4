/-!
# The rhythm of a repeating timer

Model of `TaskRunner::CreateTimer` (src/YY/Base/Threading/TaskRunner.cpp 310-328) and `Timer::RunTask` (101-140) with the `SetTimerInternal` of the runners (TaskRunner.cpp 365-382,
ThreadTaskRunnerImpl.cpp 303-329, ThreadTaskRunnerProxyImpl.h 177-209, TaskRunnerDispatchImpl.cpp 56-115), for one timer.  Line numbers below are of TaskRunner.cpp.

Times are ticks, `K` of which make a millisecond; every read of the clock is a step of its own, time passes in between.

Simplifications: differences of times are exact (so with a counter of 10 MHz, C101); the interval is at most 70 minutes, so that the timing wheel does not dispatch before the millisecond of the
expiry (C40); a system timer of `d` ms calls back `d` ms later or after that; the runner and the timer are not destroyed; whatever is queued is run later (C44, C63, C65).
-/
namespace Verif.Repeat

/-- the runner: timers of the thread pool (`SequencedTaskRunner`, `ParallelTaskRunner`), or a timing wheel (`ThreadTaskRunnerImpl`, `ThreadTaskRunnerProxyImpl`) -/
inductive Kind where
  | pool | thread | proxy
deriving DecidableEq

inductive Pc where
  /-- in `SetTimerInternal` of the runner (called in 323 or 135); its test of the expiry is next -/
  | setting
  /-- in `TaskRunnerDispatchImpl::SetTimerInternal`, 72 is next -/
  | poolSet
  /-- registered with the system, which calls back at this time or later -/
  | sys (due : Nat)
  /-- in the timing wheel -/
  | wheel
  /-- in the task queue, or dispatched -/
  | queued
  /-- in the callback (117); `_uExpire` (114) -/
  | cb (exp : Nat)
  /-- no runner knows the timer -/
  | over
deriving DecidableEq

structure St where
  now : Nat
  /-- `uExpire` -/
  exp : Nat
  pc : Pc
  /-- when the timing wheel was last processed -/
  last : Nat := 0
  cancelled : Bool := false
  /-- the times at which `RunTask` read the clock (114) to call the callback, the latest first -/
  runs : List Nat := []
deriving DecidableEq

/-- `CreateTimer` (310-328) at the time `now`, for an interval of `I` ticks -/
def create (K I now last : Nat) : Option St :=
  if I / K ≤ 0 then none else some { now := now, exp := now + I, pc := .setting, last := last }

/-- `uExpire.GetTicks() == 0 || (uExpire - GetNow()).GetTotalMilliseconds() <= 0` (375; ThreadTaskRunnerImpl.cpp 313) -/
def atOnce (K exp now : Nat) : Bool := decide (exp = 0) || decide ((exp - now) / K ≤ 0)

inductive Step (kind : Kind) (K I : Nat) : St → St → Prop
  | tick (s : St) (d : Nat) : Step kind K I s { s with now := s.now + d }
  | cancel (s : St) : Step kind K I s { s with cancelled := true }
  /-- 370-373; ThreadTaskRunnerImpl.cpp 308-312; ThreadTaskRunnerProxyImpl.h 180-183 -/
  | refuse (s : St) : s.pc = .setting → s.cancelled = true → Step kind K I s { s with pc := .over }
  /-- 375-377; ThreadTaskRunnerImpl.cpp 313-316 -/
  | post (s : St) : s.pc = .setting → kind ≠ .proxy → atOnce K s.exp s.now = true → Step kind K I s { s with pc := .queued }
  /-- 380 -/
  | toPool (s : St) : s.pc = .setting → kind = .pool → atOnce K s.exp s.now = false → Step kind K I s { s with pc := .poolSet }
  /-- TaskRunnerDispatchImpl.cpp 72-77 -/
  | poolNow (s : St) : s.pc = .poolSet → (s.exp - s.now) / K ≤ 0 → Step kind K I s { s with pc := .queued, exp := s.now }
  /-- TaskRunnerDispatchImpl.cpp 79-105 -/
  | poolArm (s : St) : s.pc = .poolSet → 0 < (s.exp - s.now) / K →
      Step kind K I s { s with pc := .sys (s.now + min ((s.exp - s.now) / K) 4294967295 * K) }
  /-- TaskRunnerDispatchImpl.cpp 86-101 -/
  | fire (s : St) (due : Nat) : s.pc = .sys due → due ≤ s.now → Step kind K I s { s with pc := .queued }
  /-- ThreadTaskRunnerImpl.cpp 318-328, ThreadTaskRunnerProxyImpl.h 187-208; ThreadTaskRunnerTimerManger.h 72-76: a timer due at the last processing is dispatched, any other goes to the wheel -/
  | toWheel (s : St) : s.pc = .setting → (kind = .thread ∧ atOnce K s.exp s.now = false) ∨ kind = .proxy →
      Step kind K I s { s with pc := if s.exp ≤ s.last then .queued else .wheel }
  /-- `ProcessingTimerTasks` (ThreadTaskRunnerTimerManger.h 111-384) does not find the timer due -/
  | process (s : St) : kind ≠ .pool → Step kind K I s { s with last := s.now }
  /-- it does (C40: not before the millisecond of the expiry, unless the timer is cancelled) -/
  | due (s : St) : s.pc = .wheel → s.exp / K ≤ s.now / K ∨ s.cancelled = true → Step kind K I s { s with last := s.now, pc := .queued }
  /-- 103-104 -/
  | drop (s : St) : s.pc = .queued → s.cancelled = true → Step kind K I s { s with pc := .over }
  /-- 103, 114-117 -/
  | run (s : St) : s.pc = .queued → s.cancelled = false → Step kind K I s { s with pc := .cb (s.now + I), runs := s.now :: s.runs }
  /-- 117, 127-135: the callback wants to be called again -/
  | again (s : St) (e : Nat) : s.pc = .cb e → Step kind K I s { s with pc := .setting, exp := e }
  /-- 117, 138: it does not, or was left by an exception -/
  | stop (s : St) (e : Nat) : s.pc = .cb e → Step kind K I s { s with pc := .over }

inductive Steps (kind : Kind) (K I : Nat) (s0 : St) : St → Prop
  | refl : Steps kind K I s0 s0
  | step {s s'} : Steps kind K I s0 s → Step kind K I s s' → Steps kind K I s0 s'

end Verif.Repeat
