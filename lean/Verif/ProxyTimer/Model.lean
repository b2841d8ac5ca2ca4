import Verif.TimingWheel.Model

/-!
# The timers of the proxy runner

Model of the timer half of `ThreadTaskRunnerProxyImpl` (`src/YY/Base/Threading/ThreadTaskRunnerProxyImpl.h`): `SetTimerInternal` (177-209), `DispatchTimerTask` (211-215),
`ExecuteTimerTasks` (296-320) and the branch for `WM_TIMER` of `TaskRunnerProc` (322-361).  The manager of the timers is the model `Verif.TimingWheel` (C40-C43) itself.  Line numbers
below are of this file.

The thread belongs to foreign code, which has its own message loop.  The runner's code runs when that code sets a timer, and when it takes a message out of the queue: `WM_TIMER`
leads to `ExecuteTimerTasks`, the runner's own message to the posted tasks.  Callbacks of timers are foreign code again, which may set timers and take messages (a dialog), so all of it
nests; `stack` holds the calls that have not returned, the innermost first.

The system: `SetTimer` starts (or restarts) the timer of the window, which comes due every `period` milliseconds, counted from the call; the period is at least 10 ms and at most
2^31 - 1 ms (`USER_TIMER_MINIMUM`, `USER_TIMER_MAXIMUM`).  A `WM_TIMER` may be taken as soon as the timer is due.  The system's clock is the same as `TickCount`'s.

Simplifications: `K` ticks make a millisecond; the wake-up time `W` ms is the tick `W * K` (`FromMilliseconds`); posting the task that sets a timer from another thread succeeds, and
posted tasks run in order (C69); `SetTimer` and `KillTimer` succeed; the runner lives on.
-/
namespace Verif.ProxyTimer
open Verif.TimingWheel

/-- a call on the runner's thread that has not returned -/
inductive Frame where
  /-- the callback of a timer: foreign code -/
  | task
  /-- `SetTimerInternal`, 200 is next (or the dispatch in 197 has not returned) -/
  | set1
  /-- `SetTimerInternal`, 205 is next (or the call in 202 has not returned) -/
  | set2
  /-- `ExecuteTimerTasks` in the dispatch loop of 298 (ThreadTaskRunnerTimerManger.h 376-381); the timers still to dispatch -/
  | exec (pend : List Tm)
deriving DecidableEq, Repr

/-- the window's timer: started at tick `since`, period in milliseconds, and the number `n` of the next time it comes due -/
structure Os where
  since : Nat
  period : Nat
  n : Nat
deriving DecidableEq, Repr

/-- the tick at which a `WM_TIMER` is due next -/
def Os.next (K : Nat) (o : Os) : Nat := o.since + o.n * (o.period * K)

structure St where
  now : Nat
  m : Mgr
  /-- `uTimerWakeupTickCount` (60) in milliseconds, `none` for `TickCount::GetMax()` -/
  known : Option Nat := none
  /-- the window's timer, if it runs -/
  os : Option Os := none
  /-- the timers that posted tasks (189-192) will set -/
  posted : List Tm := []
  stack : List Frame := []
  /-- `uSetTimerCount` (176) -/
  count : Nat := 0
  canc : Nat → Bool := fun _ => false
  /-- logs, as in `Verif.TimingWheel.World` -/
  set : List Tm := []
  far : List Tm := []
  fired : List (Tm × Nat) := []

/-- `GetWaitTimeSpan` (TaskRunnerImpl.cpp 23-41) for the wake-up time `W` ms at tick `now` -/
def wait (K now W : Nat) : Nat :=
  if W * K ≤ now then 1
  else if 4294967295 ≤ (W * K - now) / K then 4294967295
  else max ((W * K - now) / K) 1

/-- the period that `SetTimer` gives the timer -/
def clip (w : Nat) : Nat := max 10 (min w 2147483647)

/-- 299-319: compares the wake-up time with the known one, stops or starts the window's timer -/
def arm (K : Nat) (s : St) : St :=
  match wakeup s.m with
  | none => if s.known = none then s else { s with known := none, os := none }
  | some W =>
    if s.known = some W then s
    else
      let w := wait K s.now W
      { s with known := some W, os := some ⟨s.now, clip (if w = 0 then 1 else w), 1⟩ }

/-- `ThreadTaskRunnerTimerManger::SetTimerInternal` (68-109 of ThreadTaskRunnerTimerManger.h): the manager and the logs; a timer that is due runs at once -/
def put (K : Nat) (s : St) (t : Tm) : St :=
  { s with
    m := (setTimer K s.m t).1
    stack := if (setTimer K s.m t).2 then .task :: s.stack else s.stack
    set := s.set ++ [t]
    far := if s.m.base + 4194304 < ms K t.exp then s.far ++ [t] else s.far
    fired := if (setTimer K s.m t).2 then s.fired ++ [(t, s.m.last)] else s.fired }

/-- `ExecuteTimerTasks` up to the dispatch loop (298; ThreadTaskRunnerTimerManger.h 111-375) -/
def enter (K : Nat) (s : St) : St :=
  { s with m := (process K s.now s.canc s.m).1, stack := .exec (process K s.now s.canc s.m).2 :: s.stack }

/-- foreign code is running: the loop of the thread, or the callback of a timer -/
def User (s : St) : Prop := ∀ f ∈ s.stack.head?, f = .task

inductive Ev where
  /-- `d` ticks pass -/
  | tick (d : Nat)
  /-- some thread cancels a timer -/
  | cancel
  /-- another thread sets a timer: 187-193 -/
  | remote (t : Tm)
  /-- the thread takes the runner's message and runs the posted task of 191 -/
  | posted (t : Tm)
  /-- the thread itself sets a timer: 194-197 -/
  | here (t : Tm)
  /-- the thread takes a `WM_TIMER` -/
  | timer
  /-- the runner's own code goes on: 200-202, 205, the dispatch loop, 299-319 -/
  | go
  /-- the callback of a timer returns -/
  | ret

inductive Step (K : Nat) : St → Ev → St → Prop
  | tick (s : St) (d : Nat) : Step K s (.tick d) { s with now := s.now + d }
  | cancel (s : St) (i : Nat) : Step K s .cancel { s with canc := upd s.canc i true }
  /-- 180-193 -/
  | remote (s : St) (t : Tm) : s.canc t.id = false → Step K s (.remote t) { s with posted := s.posted ++ [t] }
  /-- 191, called by `ExecuteTaskRunner` (276), called by `TaskRunnerProc` (344): the timer only goes to the manager -/
  | posted (s : St) (t : Tm) (r : List Tm) : User s → s.posted = t :: r → Step K s (.posted t) (put K { s with posted := r } t)
  /-- 180-182, 196-197 -/
  | here (s : St) (t : Tm) : User s → s.canc t.id = false →
      Step K s (.here t) (put K { s with count := s.count + 1, stack := .set1 :: s.stack } t)
  /-- 353-355 -/
  | timer (s : St) (o : Os) : User s → s.os = some o → o.next K ≤ s.now →
      Step K s .timer (enter K { s with os := some { o with n := o.n + 1 } })
  /-- 200-202 -/
  | first (s : St) (r : List Frame) : s.stack = .set1 :: r → s.count = 1 → Step K s .go (enter K { s with stack := .set2 :: r })
  /-- 200: nested in another call -/
  | skip (s : St) (r : List Frame) : s.stack = .set1 :: r → s.count ≠ 1 → Step K s .go { s with stack := .set2 :: r }
  /-- 205 -/
  | leave (s : St) (r : List Frame) : s.stack = .set2 :: r → Step K s .go { s with count := s.count - 1, stack := r }
  /-- ThreadTaskRunnerTimerManger.h 376-381, 211-215 -/
  | dispatch (s : St) (t : Tm) (p : List Tm) (r : List Frame) : s.stack = .exec (t :: p) :: r →
      Step K s .go { s with stack := .task :: .exec p :: r, fired := s.fired ++ [(t, s.m.last)] }
  /-- 299-319 -/
  | arm (s : St) (r : List Frame) : s.stack = .exec [] :: r → Step K s .go (arm K { s with stack := r })
  | ret (s : St) (r : List Frame) : s.stack = .task :: r → Step K s .ret { s with stack := r }

/-- histories from `s0` in which every event satisfies `ok` -/
inductive Reach (K : Nat) (ok : St → Ev → Prop) (s0 : St) : St → Prop
  | refl : Reach K ok s0 s0
  | step {s e s'} : Reach K ok s0 s → ok s e → Step K s e s' → Reach K ok s0 s'

/-- a new runner -/
def start (K now : Nat) : St := { now := now, m := new K now }

end Verif.ProxyTimer
