/-!
# Model of `ThreadTaskRunnerWaitManger` (src/YY/Base/Threading/ThreadTaskRunnerWaitManger.h)
and of the parts of `ThreadTaskRunnerImpl` and `WaitAsyncOperation` that use it (ThreadTaskRunnerImpl.cpp 331-374, TaskRunner.cpp 575-608).

The manager is only touched by its own thread, so each call is one event of a history; completion handlers, which run inside `Resolve` and `Cancel`, are further events.
`Cancel` of a wait on another thread is two events (it only sets the status and `hThreadPoolWait`).  Handles and waits are numbers, handle 0 is NULL; `hd w` is `hHandle` of
the wait `w`.  Simplification: `pOwnerTaskRunnerWeak` of every wait is this runner; times are numbers of 100 ns.
-/
namespace Verif.WaitMgr

/-- `AsyncStatus` of a wait -/
inductive Status where
  | started | canceled | completed
deriving DecidableEq

/-- a `WaitAsyncOperation` (TaskRunner.h 132-148) -/
structure W where
  /-- strong references exist: `WeakPtr::Get` succeeds -/
  alive : Bool := true
  status : Status := .started
  /-- `hThreadPoolWait == INVALID_HANDLE_VALUE` (otherwise it is NULL) -/
  tp : Bool := false
  /-- `uTimeOut` -/
  timeout : Int := 0
deriving DecidableEq

structure St where
  /-- `hWaitHandles`, `pWaitTaskWeakPtrs`, `cWaitHandle` (21-23) -/
  h : Nat → Nat := fun _ => 0
  p : Nat → Option Nat := fun _ => none
  cnt : Nat := 0
  ws : Nat → W := fun _ => {}
  /-- calls of `SetWaitInternal` that are inside `_pOldWaitTask->Cancel()`: index and new wait -/
  pend : List (Nat × Nat) := []
  /-- results delivered: wait, handle that caused it -/
  delivered : List (Nat × Nat) := []

/-- `kMaxWaitHandleCount` (20) -/
def kMax : Nat := 63

def upd {α} (f : Nat → α) (i : Nat) (x : α) : Nat → α := fun j => if j = i then x else f j

/-- `WeakPtr::Get` of a slot -/
def get (s : St) (i : Nat) : Option Nat := match s.p i with
  | none => none
  | some w => if (s.ws w).alive then some w else none

def setW (s : St) (w : Nat) (x : W) : St := { s with ws := upd s.ws w x }

/-- the waits after `hThreadPoolWait = NULL` for the one in slot `i`, if it still exists (41-44) -/
def clearTp (s : St) (i : Nat) : Nat → W := fun v => if get s i = some v then { s.ws v with tp := false } else s.ws v

/-- `RemoveWaitHandleByIndex` (36-61) -/
def removeAt (s : St) (i : Nat) : St :=
  if s.cnt ≤ i then s
  else if i = s.cnt - 1 then { s with ws := clearTp s i, cnt := s.cnt - 1, h := upd s.h i 0, p := upd s.p i none }
  else { s with ws := clearTp s i, cnt := s.cnt - 1, h := upd (upd s.h i (s.h (s.cnt - 1))) (s.cnt - 1) 0,
                p := upd (upd s.p i (s.p (s.cnt - 1))) (s.cnt - 1) none }

/-- the search loop of `FindWaitHandle` (90-94): `n` indices to go -/
def findLoop (s : St) (x : Nat) (i : Nat) : Nat → Nat
  | 0 => kMax
  | n + 1 => if s.h i = x then i else findLoop s x (i + 1) n

/-- `FindWaitHandle` (85-97) -/
def find (s : St) (x : Nat) : Nat := if x = 0 then kMax else findLoop s x 0 s.cnt

inductive Res where
  | ok | invalidArg | cancelled | notImpl
deriving DecidableEq

/-- `WaitAsyncOperation::Cancel` on the runner's thread (TaskRunner.cpp 575-602) with `DeleteWaitInternal` (ThreadTaskRunnerImpl.cpp 360-374) -/
def cancel (hd : Nat → Nat) (s : St) (w : Nat) : St × Bool :=
  if (s.ws w).status = .started then
    let tp := (s.ws w).tp
    let s := setW s w { s.ws w with status := .canceled, tp := false }
    (if tp then removeAt s (find s (hd w)) else s, true)
  else (s, false)

/-- `SetWaitInternal` of the manager (99-136); when the old wait is really cancelled its handlers run, and the overwriting of the slot remains to be done (`finish`) -/
def setWait (hd : Nat → Nat) (s : St) (w : Nat) : St × Res :=
  if hd w = 0 then (s, .invalidArg)
  else
    let i := find s (hd w)
    if i ≠ kMax then
      let s := setW s w { s.ws w with tp := true }
      match get s i with
      | some old =>
        if old = w then (s, .ok)
        else
          match cancel hd s old with
          | (s, true) => ({ s with pend := (i, w) :: s.pend }, .ok)
          | (s, false) => ({ s with p := upd s.p i (some w) }, .ok)
      | none => ({ s with p := upd s.p i (some w) }, .ok)
    else if kMax ≤ s.cnt then (s, .notImpl)
    else
      let s := setW s w { s.ws w with tp := true }
      ({ s with h := upd s.h s.cnt (hd w), p := upd s.p s.cnt (some w), cnt := s.cnt + 1 }, .ok)

/-- `ThreadTaskRunnerImpl::SetWaitInternal` on the runner's thread (331-358); `raced`: another thread cancels the wait right after it was looked at.
A result `notImpl` means that the wait is handed to the thread pool. -/
def set (hd : Nat → Nat) (s : St) (w : Nat) (raced : Bool) : St × Res :=
  if (s.ws w).status = .canceled ∧ raced = false then (s, .cancelled) else setWait hd s w

/-- `pWaitTaskWeakPtrs[_uIndex] = _pWaitTask` after `Cancel` has returned (121) -/
def finish (s : St) : St := match s.pend with
  | [] => s
  | (i, w) :: l => { s with p := upd s.p i (some w), pend := l }

/-- `ProcessingWaitTask` (208-219) up to the handlers -/
def process (s : St) (i : Nat) : St :=
  if s.cnt ≤ i then s
  else
    let x := s.h i
    match get s i with
    | none => removeAt s i
    | some w =>
      let s := removeAt s i
      if (s.ws w).status = .started then { setW s w { s.ws w with status := .completed } with delivered := (w, x) :: s.delivered }
      else s

/-- `if (_uMinimumWakeupTickCount > _pWait->uTimeOut) …` of `GetMinimumWakeupTickCount` (63-83) -/
def earlier (m : Option Int) (t : Int) : Option Int :=
  match m with
  | none => some t
  | some t' => if t' > t then some t else some t'

/-- loop of `GetMinimumWakeupTickCount` (63-83); `none` = `TickCount::GetMax()` -/
def minLoop (s : St) (m : Option Int) : Nat → St × Option Int
  | 0 => (s, m)
  | i + 1 =>
    match get s i with
    | none => minLoop (removeAt s i) m i
    | some w =>
      if (s.ws w).status = .canceled then minLoop (removeAt s i) m i
      else minLoop s (earlier m (s.ws w).timeout) i

def minimum (s : St) : St × Option Int := minLoop s none s.cnt

/-- `TimeSpan::GetTotalMilliseconds` -/
def ms (d : Int) : Int := d.tdiv 10000

/-- time-out branch of `ProcessingWaitTasks` (163-184) when the handlers leave the manager alone -/
def timeoutLoop (now : Int) (s : St) : Nat → St
  | 0 => s
  | i + 1 =>
    match get s i with
    | none => timeoutLoop now (removeAt s i) i
    | some w => if ms ((s.ws w).timeout - now) > 0 then timeoutLoop now s i else timeoutLoop now (process s i) i

def timeouts (now : Int) (s : St) : St := timeoutLoop now s s.cnt

/-- what can happen, in any order -/
inductive Ev where
  /-- a wait is registered -/
  | set (w : Nat) (raced : Bool)
  | finish
  | cancel (w : Nat)
  /-- another thread cancels: sets the status, later exchanges `hThreadPoolWait` -/
  | remoteBegin (w : Nat)
  | remoteExch (w : Nat)
  /-- the last strong reference goes away -/
  | expire (w : Nat)
  /-- `Reset` and a new time-out (TaskRunner.cpp 544-546) -/
  | reset (w : Nat) (timeout : Int)
  /-- handle `i` is signalled, abandoned or found invalid; an iteration of a loop of `ProcessingWaitTasks` -/
  | process (i : Nat)
  | minimum
  | timeouts (now : Int)

/-- `none`: the event is not possible -/
def step (hd : Nat → Nat) (s : St) : Ev → Option St
  | .set w raced => if (s.ws w).alive ∧ (s.ws w).status ≠ .completed then some (set hd s w raced).1 else none
  | .finish => if s.pend = [] then none else some (finish s)
  | .cancel w => if (s.ws w).alive then some (cancel hd s w).1 else none
  | .remoteBegin w => if (s.ws w).alive ∧ (s.ws w).status = .started then some (setW s w { s.ws w with status := .canceled }) else none
  | .remoteExch w => if (s.ws w).status = .canceled then some (setW s w { s.ws w with tp := false }) else none
  | .expire w => if s.pend.any (fun x => x.2 == w) then none else some (setW s w { s.ws w with alive := false })
  | .reset w t => if (s.ws w).alive ∧ (s.ws w).status = .completed then some (setW s w { s.ws w with status := .started, timeout := t }) else none
  | .process i => some (process s i)
  | .minimum => some (minimum s).1
  | .timeouts now => some (timeouts now s)

def run (hd : Nat → Nat) (s : St) : List Ev → Option St
  | [] => some s
  | e :: es => match step hd s e with | none => none | some s => run hd s es

end Verif.WaitMgr
