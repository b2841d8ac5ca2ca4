import Verif.Common.Sum

/-!
# Timers on the thread pool

Model of a `Timer` that is served by the thread pool: `TaskRunner::SetTimerInternal`
(`src/YY/Base/Threading/TaskRunner.cpp` 365-382), `Timer::Cancel` (142-161), `Timer::RunTask` (101-140),
`TaskRunnerDispatchForWindows::SetTimerInternal` (`TaskRunnerDispatchImpl.cpp` 56-115),
`TaskRunnerDispatch::DispatchTask` (`TaskRunnerDispatchImpl.h` 42-69).

The references to the timer are what matters here. They are held by the users of the timer, by the armed
system timer (`AddRef` at 81, given back by the callback through `RefPtr::FromPtr` at 88, or by whoever
deletes the system timer before it fires), by the queue of the runner and by the running task.

System calls (trusted, from their documentation):
* `CreateTimerQueueTimer` stores the handle before the timer can fire, or fails and changes nothing;
* `DeleteTimerQueueTimer(NULL, h, NULL)` returns `FALSE` if the callback is being executed (the timer is
  then deleted when the callback ends) and `TRUE` otherwise: also when the callback is already over.

Simplifications: sequentially consistent memory; one `Timer` object; the parts of one thread that follow
each other without the timer being involved are one step; a task that rearms its timer does so in parallel
to giving back its own reference (the code does it before), which allows more interleavings, not fewer.
-/
namespace Verif.PoolTimer
open Verif.Common

/-- State of a system timer. -/
inductive Os
  /-- waits for its due time -/
  | armed
  /-- its callback is being executed; `del`: somebody asked to delete it -/
  | firing (del : Bool)
  /-- its callback is over -/
  | fired
  /-- deleted -/
  | gone
  deriving DecidableEq, Repr

/-- A thread that has to do with the timer, and where it is. -/
inductive Pc
  /-- a user (or a variable of theirs) holding a `RefPtr<Timer>` -/
  | user
  /-- `Timer::Cancel`: the cancel bit is set (144), 146 is next -/
  | cancel
  /-- `Timer::Cancel`: took the handle of system timer `h` out of `hThreadPoolTimer` (146), 154 is next -/
  | took (h : Nat)
  /-- `Timer::Cancel`: `DeleteTimerQueueTimer` returned `TRUE`, `Release` (156) is next -/
  | rel
  /-- `TaskRunner::SetTimerInternal` has been called -/
  | set
  /-- dispatcher's `SetTimerInternal`, 61 is next -/
  | arm
  /-- it took handle `h` (61), 65 is next -/
  | armTook (h : Nat)
  /-- `DeleteTimerQueueTimer` returned `TRUE`, `Release` (67) is next -/
  | armRel
  /-- 72 is next -/
  | due
  /-- callback of system timer `h` (86-101), 92 is next -/
  | cb (h : Nat)
  /-- callback of `h`: took handle `g`, 96 is next -/
  | cbTook (h g : Nat)
  /-- callback of `h`, `DispatchTask` (100) is next -/
  | cbDisp (h : Nat)
  /-- callback of `h` has passed its reference on and is about to end -/
  | cbEnd (h : Nat)
  /-- callback of `h` still has the reference (the dispatch was refused) and gives it back -/
  | cbDrop (h : Nat)
  /-- in the queue of the runner or being executed by it, before the timer's own callback -/
  | queued
  /-- a reference about to be released -/
  | drop
  /-- nothing more to do -/
  | over
  deriving DecidableEq, Repr

structure St where
  /-- `Timer::hThreadPoolTimer` (number of a system timer) -/
  slot : Option Nat := none
  /-- all system timers ever created for this timer -/
  os : List Os := []
  /-- `RefValue::uRef` -/
  ref : Nat
  /-- `TaskEntryStyle::Canceled` -/
  canceled : Bool := false
  /-- ghost: the object was used after its counter had reached zero -/
  bad : Bool := false
  ths : List Pc
  deriving DecidableEq, Repr

/-- References a thread holds. -/
def held : Pc → Nat
  | .user | .cancel | .took _ | .set | .arm | .armTook _ | .due | .cb _ | .cbTook _ _ | .cbDisp _ | .cbDrop _ | .queued | .drop => 1
  | .rel | .armRel => 2
  | .cbEnd _ | .over => 0

/-- Access to the timer object. -/
def acc (s : St) : Bool := s.bad || s.ref = 0

/-- `RefValue::Release` (RefPtr.h 51-63); the counter is an unsigned number and does not go below zero. -/
def relRef (s : St) : Nat := s.ref - 1

/-- What `DeleteTimerQueueTimer(NULL, h, NULL)` leaves behind. -/
def delOs : Os → Os
  | .armed => .gone
  | .firing _ => .firing true
  | .fired => .gone
  | .gone => .gone

/-- What `DeleteTimerQueueTimer(NULL, h, NULL)` returns. -/
def delRet : Os → Bool
  | .firing _ => false
  | _ => true

/-- State of a system timer when its callback has ended. -/
def endOs : Os → Os
  | .firing true => .gone
  | _ => .fired

/-- A thread between taking a handle (146, 61) and deleting the system timer (154, 65). -/
def holds (h : Nat) : Pc → Bool
  | .took g | .armTook g => g = h
  | _ => false

/-- One atomic step. `win`: may a callback end while some thread is between taking its handle and deleting
its system timer? -/
inductive Step (win : Bool) : St → St → Prop
  /-- a user copies their reference -/
  | dup (s) (i : Nat) : s.ths[i]? = some .user →
      Step win s { s with ref := s.ref + 1, ths := s.ths ++ [.user], bad := acc s }
  /-- a user gives their reference up -/
  | leave (s) (i : Nat) : s.ths[i]? = some .user →
      Step win s { s with ths := s.ths.set i .drop }
  /-- `Release` -/
  | drop (s) (i : Nat) : s.ths[i]? = some .drop →
      Step win s { s with ref := relRef s, ths := s.ths.set i .over, bad := acc s }
  /-- `Timer::Cancel` 144 -/
  | cancel (s) (i : Nat) : s.ths[i]? = some .user →
      Step win s { s with canceled := true, ths := s.ths.set i .cancel, bad := acc s }
  /-- 146: nothing there, done -/
  | takeNone (s) (i : Nat) : s.ths[i]? = some .cancel → s.slot = none →
      Step win s { s with ths := s.ths.set i .user, bad := acc s }
  /-- 146: a handle -/
  | takeSome (s) (i h : Nat) : s.ths[i]? = some .cancel → s.slot = some h →
      Step win s { s with slot := none, ths := s.ths.set i (.took h), bad := acc s }
  /-- 154 -/
  | del (s) (i h : Nat) (o : Os) : s.ths[i]? = some (.took h) → s.os[h]? = some o →
      Step win s { s with os := s.os.set h (delOs o), ths := s.ths.set i (if delRet o then .rel else .user) }
  /-- 156 -/
  | relCancel (s) (i : Nat) : s.ths[i]? = some .rel →
      Step win s { s with ref := relRef s, ths := s.ths.set i .user, bad := acc s }
  /-- `TaskRunner::SetTimerInternal` 370-374: cancelled, the reference is dropped -/
  | setCancel (s) (i : Nat) : s.ths[i]? = some .set → s.canceled = true →
      Step win s { s with ths := s.ths.set i .drop, bad := acc s }
  /-- 375-378: already due, `PostTaskInternal` -/
  | setPost (s) (i : Nat) : s.ths[i]? = some .set → s.canceled = false →
      Step win s { s with ths := s.ths.set i .queued, bad := acc s }
  /-- 380: to the dispatcher -/
  | setArm (s) (i : Nat) : s.ths[i]? = some .set → s.canceled = false →
      Step win s { s with ths := s.ths.set i .arm, bad := acc s }
  /-- dispatcher 61: nothing there -/
  | armNone (s) (i : Nat) : s.ths[i]? = some .arm → s.slot = none →
      Step win s { s with ths := s.ths.set i .due, bad := acc s }
  /-- dispatcher 61: an old handle -/
  | armSome (s) (i h : Nat) : s.ths[i]? = some .arm → s.slot = some h →
      Step win s { s with slot := none, ths := s.ths.set i (.armTook h), bad := acc s }
  /-- dispatcher 65 -/
  | armDel (s) (i h : Nat) (o : Os) : s.ths[i]? = some (.armTook h) → s.os[h]? = some o →
      Step win s { s with os := s.os.set h (delOs o), ths := s.ths.set i (if delRet o then .armRel else .due) }
  /-- dispatcher 67 -/
  | armRel (s) (i : Nat) : s.ths[i]? = some .armRel →
      Step win s { s with ref := relRef s, ths := s.ths.set i .due, bad := acc s }
  /-- dispatcher 74-78: due now; `DispatchTask` posts it -/
  | dueNow (s) (i : Nat) : s.ths[i]? = some .due → s.canceled = false →
      Step win s { s with ths := s.ths.set i .queued, bad := acc s }
  /-- dispatcher 74-78 and `DispatchTask` 49-50, 60-62: cancelled or runner gone, the reference is dropped -/
  | dueDrop (s) (i : Nat) : s.ths[i]? = some .due →
      Step win s { s with ths := s.ths.set i .drop, bad := acc s }
  /-- dispatcher 81-105: `AddRef`, `CreateTimerQueueTimer` succeeds; the dispatcher's own reference is next -/
  | create (s) (i : Nat) : s.ths[i]? = some .due →
      Step win s { s with ref := s.ref + 1, os := s.os ++ [.armed], slot := some s.os.length,
                          ths := s.ths.set i .drop, bad := acc s }
  /-- dispatcher 81, 107-113: `CreateTimerQueueTimer` fails, the extra reference is released again -/
  | createFail (s) (i : Nat) : s.ths[i]? = some .due →
      Step win s { s with ths := s.ths.set i .drop, bad := acc s }
  /-- the system timer fires, its callback starts (86-90) and takes over the reference -/
  | fire (s) (h : Nat) : s.os[h]? = some .armed →
      Step win s { s with os := s.os.set h (.firing false), ths := s.ths ++ [.cb h] }
  /-- callback 92: nothing there -/
  | cbNone (s) (i h : Nat) : s.ths[i]? = some (.cb h) → s.slot = none →
      Step win s { s with ths := s.ths.set i (.cbDisp h), bad := acc s }
  /-- callback 92: a handle -/
  | cbSome (s) (i h g : Nat) : s.ths[i]? = some (.cb h) → s.slot = some g →
      Step win s { s with slot := none, ths := s.ths.set i (.cbTook h g), bad := acc s }
  /-- callback 96 -/
  | cbDel (s) (i h g : Nat) (o : Os) : s.ths[i]? = some (.cbTook h g) → s.os[g]? = some o →
      Step win s { s with os := s.os.set g (delOs o), ths := s.ths.set i (.cbDisp h) }
  /-- callback 100: `DispatchTask` passes the reference to a runner -/
  | cbPost (s) (i h : Nat) : s.ths[i]? = some (.cbDisp h) → s.canceled = false →
      Step win s { s with ths := s.ths.set i (.cbEnd h) ++ [.queued], bad := acc s }
  /-- callback 100: cancelled, or the runner is gone, or it refuses -/
  | cbRefuse (s) (i h : Nat) : s.ths[i]? = some (.cbDisp h) →
      Step win s { s with ths := s.ths.set i (.cbDrop h), bad := acc s }
  /-- the callback's reference is released -/
  | cbRel (s) (i h : Nat) : s.ths[i]? = some (.cbDrop h) →
      Step win s { s with ref := relRef s, ths := s.ths.set i (.cbEnd h), bad := acc s }
  /-- the callback ends -/
  | cbEnd (s) (i h : Nat) (o : Os) : s.ths[i]? = some (.cbEnd h) → s.os[h]? = some o →
      (win = false → ∀ p ∈ s.ths, holds h p = false) →
      Step win s { s with os := s.os.set h (endOs o), ths := s.ths.set i .over }
  /-- `RunTask`: cancelled, or a timer that does not repeat (or the runner dropped the task) -/
  | runEnd (s) (i : Nat) : s.ths[i]? = some .queued →
      Step win s { s with ths := s.ths.set i .drop, bad := acc s }
  /-- `RunTask` 127-135: the callback wants to be called again: `SetTimerInternal(this)` makes a new
  reference, the task's own one is released afterwards -/
  | rearm (s) (i : Nat) : s.ths[i]? = some .queued → s.canceled = false →
      Step win s { s with ref := s.ref + 1, ths := s.ths.set i .drop ++ [.set], bad := acc s }

/-- A timer just created: the creator's reference and the one passed to `SetTimerInternal`
(`CreateTimer` 323). -/
def init : St := { ref := 2, ths := [.user, .set] }

inductive Reach (win : Bool) : St → Prop
  | init : Reach win init
  | step {s s'} : Reach win s → Step win s s' → Reach win s'

end Verif.PoolTimer
