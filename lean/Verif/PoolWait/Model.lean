import Verif.Common.Sum

/-!
# Waits on the thread pool

Model of a `WaitAsyncOperation` that is served by the thread pool: `TaskRunner::SetWaitInternal`
(`src/YY/Base/Threading/TaskRunner.cpp` 384-393), `WaitAsyncOperation::Cancel` (575-602), `Wait::RunTask` (521-553, the
re-registration of a repeating wait), `TaskRunnerDispatchForWindows::SetWaitInternal` (`TaskRunnerDispatchImpl.cpp`
117-174) with its callback (144-160).

The registration of the system holds a *weak* reference to the operation (`AddWeakRef` at 139), given back by the
callback (through the `WeakPtr` of 146) or by whoever unregisters the wait before it fires (128, 596).
`RefValue` (`include/YY/Base/Memory/RefPtr.h` 28-113): `strong` counts `RefPtr`s, `weak` counts `WeakPtr`s plus one for all
strong references together; the object is destroyed when `strong` reaches zero, its memory freed when `weak` does.

System calls (trusted, from their documentation):
* `RegisterWaitForSingleObject` stores the handle before the wait can fire, or fails and changes nothing;
* `UnregisterWaitEx(h, NULL)` returns `FALSE` if the callback is being executed (the registration then ends with the
  callback) and `TRUE` otherwise: also when the callback is already over. A registration with `WT_EXECUTEONLYONCE` whose
  callback is over still exists until it is unregistered.

Simplifications: sequentially consistent memory; one operation; the destructor and the release of the common weak reference
(RefPtr.h 57-59) are one step (see `Verif.RefPtr` for the split); calls of completion handlers are represented by the token
`queued` (the posted `Wait::RunTask`).
-/
namespace Verif.PoolWait
open Verif.Common

/-- State of a registration with the system. -/
inductive Os
  /-- waits for the object or the time-out -/
  | armed
  /-- its callback is being executed; `del`: somebody asked to unregister it -/
  | firing (del : Bool)
  /-- its callback is over, not unregistered -/
  | fired
  /-- unregistered -/
  | gone
  deriving DecidableEq, Repr

/-- `AsyncStatus` (Async.h 20-31). -/
inductive Status
  | started | completed | canceled | error
  deriving DecidableEq, Repr

/-- A thread that has to do with the operation, and where it is. -/
inductive Pc
  /-- a user holding a `RefPtr` (the `Task`, the `Wait`) -/
  | user
  /-- `WaitAsyncOperation::Cancel`: won at 577, 582 is next -/
  | cancel
  /-- took handle `h` (582), 594 is next -/
  | took (h : Nat)
  /-- `UnregisterWaitEx` returned `TRUE`, `ReleaseWeak` (596) is next -/
  | rel
  /-- `TaskRunner::SetWaitInternal` has been called -/
  | set
  /-- dispatcher's `SetWaitInternal`, 122 is next -/
  | arm
  /-- it took handle `h` (122), 126 is next -/
  | armTook (h : Nat)
  /-- `UnregisterWaitEx` returned `TRUE`, `ReleaseWeak` (128) is next -/
  | armRel
  /-- 132 is next -/
  | due
  /-- callback of registration `h` (144-160), 147 is next -/
  | cb (h : Nat)
  /-- callback: has a strong reference, 151 is next -/
  | cbGot (h : Nat)
  /-- callback of `h`: took handle `g`, 155 is next -/
  | cbTook (h g : Nat)
  /-- callback: `Resolve` (159) is next -/
  | cbRes (h : Nat)
  /-- callback: `_pWait` is destroyed next (160) -/
  | cbDropS (h : Nat)
  /-- callback: `_pWaitWeak` is destroyed next (149, 160) -/
  | cbDropW (h : Nat)
  /-- callback is about to end -/
  | cbEnd (h : Nat)
  /-- the completion was posted to the runner (`Wait::OnCompleted` 509-519) -/
  | queued
  /-- a strong reference about to be released -/
  | drop
  /-- nothing more to do -/
  | over
  deriving DecidableEq, Repr

structure St where
  /-- `WaitAsyncOperation::hThreadPoolWait` (number of a registration) -/
  slot : Option Nat := none
  /-- all registrations ever made for this operation -/
  os : List Os := []
  /-- `RefValue::uRef` -/
  strong : Nat
  /-- `RefValue::uWeakRef` -/
  weak : Nat
  /-- `AsyncInfo::eStatus` -/
  status : Status := .started
  /-- ghost: the object was used after it was destroyed, or its memory after it was freed -/
  bad : Bool := false
  ths : List Pc
  deriving DecidableEq, Repr

/-- Strong references of a thread. -/
def heldS : Pc → Nat
  | .user | .cancel | .took _ | .rel | .set | .arm | .armTook _ | .armRel | .due | .cbGot _ | .cbTook _ _ | .cbRes _ | .cbDropS _ | .drop => 1
  | _ => 0

/-- Weak references of a thread. -/
def heldW : Pc → Nat
  | .rel | .armRel | .cb _ | .cbGot _ | .cbTook _ _ | .cbRes _ | .cbDropS _ | .cbDropW _ => 1
  | _ => 0

/-- Access to the object. -/
def acc (s : St) : Bool := s.bad || s.strong = 0 || s.weak = 0

/-- Access to the counters only. -/
def accW (s : St) : Bool := s.bad || s.weak = 0

/-- `Release` (RefPtr.h 51-63): the weak counter afterwards. -/
def relW (s : St) : Nat := if s.strong = 1 then s.weak - 1 else s.weak

/-- What `UnregisterWaitEx(h, NULL)` leaves behind. -/
def delOs : Os → Os
  | .armed => .gone
  | .firing _ => .firing true
  | .fired => .gone
  | .gone => .gone

/-- What `UnregisterWaitEx(h, NULL)` returns. -/
def delRet : Os → Bool
  | .firing _ => false
  | _ => true

/-- State of a registration when its callback has ended. -/
def endOs : Os → Os
  | .firing true => .gone
  | _ => .fired

/-- A thread between taking a handle (582, 122) and unregistering it (594, 126). -/
def holds (h : Nat) : Pc → Bool
  | .took g | .armTook g => g = h
  | _ => false

/-- `Resolve` (Async.h 425 ff.): wins only in state `Started` (201). -/
def resolved : Status → Status
  | .started => .completed
  | x => x

/-- What a winning `Resolve` posts. -/
def posted : Status → List Pc
  | .started => [.queued]
  | _ => []

/-- One atomic step. `win`: may a callback end while some thread is between taking its handle and unregistering it? -/
inductive Step (win : Bool) : St → St → Prop
  /-- a user copies their reference -/
  | dup (s) (i : Nat) : s.ths[i]? = some .user →
      Step win s { s with strong := s.strong + 1, ths := s.ths ++ [.user], bad := acc s }
  /-- a user gives their reference up -/
  | leave (s) (i : Nat) : s.ths[i]? = some .user →
      Step win s { s with ths := s.ths.set i .drop }
  /-- `Release` -/
  | drop (s) (i : Nat) : s.ths[i]? = some .drop →
      Step win s { s with strong := s.strong - 1, weak := relW s, ths := s.ths.set i .over, bad := acc s }
  /-- `Cancel` 577 -/
  | cancel (s) (i : Nat) : s.ths[i]? = some .user → s.status = .started →
      Step win s { s with status := .canceled, ths := s.ths.set i .cancel, bad := acc s }
  /-- 582: nothing there (or the thread runner's mark), done -/
  | takeNone (s) (i : Nat) : s.ths[i]? = some .cancel → s.slot = none →
      Step win s { s with ths := s.ths.set i .user, bad := acc s }
  /-- 582: a handle -/
  | takeSome (s) (i h : Nat) : s.ths[i]? = some .cancel → s.slot = some h →
      Step win s { s with slot := none, ths := s.ths.set i (.took h), bad := acc s }
  /-- 594 -/
  | del (s) (i h : Nat) (o : Os) : s.ths[i]? = some (.took h) → s.os[h]? = some o →
      Step win s { s with os := s.os.set h (delOs o), ths := s.ths.set i (if delRet o then .rel else .user) }
  /-- 596, then the handlers are called (600) and `Cancel` returns `true` -/
  | relCancel (s) (i : Nat) : s.ths[i]? = some .rel →
      Step win s { s with weak := s.weak - 1, ths := s.ths.set i .user, bad := acc s }
  /-- `TaskRunner::SetWaitInternal` 386-389: cancelled -/
  | setCancel (s) (i : Nat) : s.ths[i]? = some .set → s.status = .canceled →
      Step win s { s with ths := s.ths.set i .drop, bad := acc s }
  /-- 391: to the dispatcher -/
  | setArm (s) (i : Nat) : s.ths[i]? = some .set → s.status ≠ .canceled →
      Step win s { s with ths := s.ths.set i .arm, bad := acc s }
  /-- dispatcher 122: nothing there -/
  | armNone (s) (i : Nat) : s.ths[i]? = some .arm → s.slot = none →
      Step win s { s with ths := s.ths.set i .due, bad := acc s }
  /-- dispatcher 122: an old handle -/
  | armSome (s) (i h : Nat) : s.ths[i]? = some .arm → s.slot = some h →
      Step win s { s with slot := none, ths := s.ths.set i (.armTook h), bad := acc s }
  /-- dispatcher 126 -/
  | armDel (s) (i h : Nat) (o : Os) : s.ths[i]? = some (.armTook h) → s.os[h]? = some o →
      Step win s { s with os := s.os.set h (delOs o), ths := s.ths.set i (if delRet o then .armRel else .due) }
  /-- dispatcher 128 -/
  | armRel (s) (i : Nat) : s.ths[i]? = some .armRel →
      Step win s { s with weak := s.weak - 1, ths := s.ths.set i .due, bad := acc s }
  /-- dispatcher 133-137: the time-out is over, `Resolve` at once -/
  | dueNow (s) (i : Nat) : s.ths[i]? = some .due →
      Step win s { s with status := resolved s.status, ths := s.ths.set i .drop ++ posted s.status, bad := acc s }
  /-- dispatcher 139-163: `AddWeakRef`, `RegisterWaitForSingleObject` succeeds -/
  | create (s) (i : Nat) : s.ths[i]? = some .due →
      Step win s { s with weak := s.weak + 1, os := s.os ++ [.armed], slot := some s.os.length,
                          ths := s.ths.set i .drop, bad := acc s }
  /-- dispatcher 139, 165-171: it fails, the weak reference is released, `SetErrorCode` -/
  | createFail (s) (i : Nat) : s.ths[i]? = some .due →
      Step win s { s with status := if s.status = .started then .error else s.status,
                          ths := s.ths.set i .drop, bad := acc s }
  /-- the wait fires, its callback starts (144-146) and takes over the weak reference -/
  | fire (s) (h : Nat) : s.os[h]? = some .armed →
      Step win s { s with os := s.os.set h (.firing false), ths := s.ths ++ [.cb h] }
  /-- callback 147: `TryAddRef` succeeds -/
  | cbGet (s) (i h : Nat) : s.ths[i]? = some (.cb h) → 0 < s.strong →
      Step win s { s with strong := s.strong + 1, ths := s.ths.set i (.cbGot h), bad := accW s }
  /-- callback 147-149: the object is destroyed already -/
  | cbExpired (s) (i h : Nat) : s.ths[i]? = some (.cb h) → s.strong = 0 →
      Step win s { s with ths := s.ths.set i (.cbDropW h), bad := accW s }
  /-- callback 151: nothing there -/
  | cbNone (s) (i h : Nat) : s.ths[i]? = some (.cbGot h) → s.slot = none →
      Step win s { s with ths := s.ths.set i (.cbRes h), bad := acc s }
  /-- callback 151: a handle -/
  | cbSome (s) (i h g : Nat) : s.ths[i]? = some (.cbGot h) → s.slot = some g →
      Step win s { s with slot := none, ths := s.ths.set i (.cbTook h g), bad := acc s }
  /-- callback 155 -/
  | cbDel (s) (i h g : Nat) (o : Os) : s.ths[i]? = some (.cbTook h g) → s.os[g]? = some o →
      Step win s { s with os := s.os.set g (delOs o), ths := s.ths.set i (.cbRes h) }
  /-- callback 159: `Resolve` -/
  | cbResolve (s) (i h : Nat) : s.ths[i]? = some (.cbRes h) →
      Step win s { s with status := resolved s.status, ths := s.ths.set i (.cbDropS h) ++ posted s.status, bad := acc s }
  /-- 160: `_pWait` is destroyed -/
  | cbRelS (s) (i h : Nat) : s.ths[i]? = some (.cbDropS h) →
      Step win s { s with strong := s.strong - 1, weak := relW s, ths := s.ths.set i (.cbDropW h), bad := acc s }
  /-- 149, 160: `_pWaitWeak` is destroyed -/
  | cbRelW (s) (i h : Nat) : s.ths[i]? = some (.cbDropW h) →
      Step win s { s with weak := s.weak - 1, ths := s.ths.set i (.cbEnd h), bad := accW s }
  /-- the callback ends -/
  | cbEnd (s) (i h : Nat) (o : Os) : s.ths[i]? = some (.cbEnd h) → s.os[h]? = some o →
      (win = false → ∀ p ∈ s.ths, holds h p = false) →
      Step win s { s with os := s.os.set h (endOs o), ths := s.ths.set i .over }
  /-- the posted task is dropped, or does not want to go on -/
  | runEnd (s) (j : Nat) : s.ths[j]? = some .queued →
      Step win s { s with ths := s.ths.set j .over }
  /-- `Wait::RunTask` 540-549: the callback wants to be called again: `Reset` and `SetWaitInternal` with a copy of the
  reference the `Wait` (thread `i`) holds -/
  | rearm (s) (i j : Nat) : s.ths[j]? = some .queued → s.ths[i]? = some .user →
      Step win s { s with status := .started, strong := s.strong + 1, ths := s.ths.set j .set, bad := acc s }

/-- An operation just created (`WaitForObjectAsync` 220-237): the creator's reference and the one passed to
`SetWaitInternal`. -/
def init : St := { strong := 2, weak := 1, ths := [.user, .set] }

inductive Reach (win : Bool) : St → Prop
  | init : Reach win init
  | step {s s'} : Reach win s → Step win s s' → Reach win s'

inductive Steps (win : Bool) : St → St → Prop
  | refl (s) : Steps win s s
  | tail {s t u} : Steps win s t → Step win t u → Steps win s u

end Verif.PoolWait
