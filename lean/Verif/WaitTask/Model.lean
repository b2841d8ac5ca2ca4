import Verif.Common.Sum

/-!
# A repeating `Wait`

Model of `TaskRunner::CreateWait` (`src/YY/Base/Threading/TaskRunner.cpp` 330-363) and of the `Wait` it returns: `Wait::OnCompleted`
(509-519), `Wait::RunTask` (521-553), `Wait::Cancel` (555-564), `Wait::InstallCompleted` (566-573), `WaitAsyncOperation::Cancel` (575-602),
`WaitAsyncOperation::Reset` (604-608), with the completion protocol of its operation (`include/YY/Base/Threading/Async.h`: 199-207, 282-297,
309-324, 425-429, 455-471).

The registration with the system is reduced to `armed` (see `Verif.PoolWait` for its references); when the wait fires, a thread of the pool
resolves the operation. There is one `Wait`, so one handler entry: `deleg` is how often it is linked in the operation's delegate.

Simplifications: sequentially consistent memory; `WaitAsyncOperation::Cancel` does not remove the registration (a later fire loses at 444 all the
same); a wait whose time is over is resolved by the dispatcher itself (TaskRunnerDispatchImpl.cpp 133-137): the same as a registration that fires at
once; the runner executes posted tasks (it is not stopped).
-/
namespace Verif.WaitTask
open Verif.Common

/-- `AsyncStatus` (Async.h 20-31). -/
inductive Status
  | started | completed | canceled | error
  deriving DecidableEq, Repr

/-- A thread that completes the operation (`Resolve` 444-470, `Cancel` 577-600, `SetErrorCode`), after it won at 201. -/
inductive NPc
  /-- the result is stored next (468) -/
  | store
  /-- `hr` is set next (311), waking the waiters -/
  | hr
  /-- the handlers are taken next (316) -/
  | swap
  /-- it has to call `k` handlers (319-323) -/
  | inv (k : Nat)
  | over
  deriving DecidableEq, Repr

/-- The runner with respect to this `Wait`. -/
inductive RPc
  | idle
  /-- `RunTask`, 523 is next -/
  | start
  /-- `GetResult` (531, Async.h 427): waits for `hr` -/
  | get
  /-- in the callback -/
  | cb
  /-- `Reset` 606 is next -/
  | reset1
  /-- `Reset` 607 is next -/
  | reset2
  /-- `SetWaitInternal` (547) is next -/
  | setw
  /-- `InstallCompleted` (548) is next -/
  | inst
  deriving DecidableEq, Repr

structure St where
  /-- `AsyncInfo::eStatus` -/
  status : Status := .started
  /-- `AsyncInfo::hr ≠ E_PENDING` -/
  hrDone : Bool := false
  /-- the stored result: which completion it comes from -/
  res : Nat := 0
  /-- how often the handler is linked in `oCompletedDelegate` -/
  deleg : Nat := 1
  /-- how often the `Wait` is in the queue of its runner -/
  queue : Nat := 0
  /-- the system waits for the handle -/
  armed : Bool := true
  ns : List NPc := []
  r : RPc := .idle
  /-- `TaskEntryStyle::Canceled` of the `Wait` -/
  canceled : Bool := false
  /-- ghost: the callback returned `false` -/
  ended : Bool := false
  /-- ghost: how often the wait completed (fired and won) -/
  comps : Nat := 0
  /-- ghost: the results the callback was called with -/
  got : List Nat := []
  /-- ghost: how often the wait was set up again -/
  resets : Nat := 0
  deriving DecidableEq, Repr

/-- `Wait::OnCompleted` (509-519): how many tasks it posts. -/
def post : Status → Nat
  | .completed => 1
  | _ => 0

/-- One atomic step. `win`: may the runner reset the operation while the thread that completed it has not yet taken the handlers (between 311 and
316)? `fail`: may registration with the system fail? -/
inductive Step (win fail : Bool) : St → St → Prop
  /-- the wait fires and wins (444) -/
  | fire (s) : s.armed = true → s.status = .started →
      Step win fail s { s with armed := false, status := .completed, comps := s.comps + 1, ns := s.ns ++ [.store] }
  /-- the wait fires and loses -/
  | fireLose (s) : s.armed = true → s.status ≠ .started → Step win fail s { s with armed := false }
  /-- 468 -/
  | store (s) (i : Nat) : s.ns[i]? = some .store → Step win fail s { s with res := s.comps, ns := s.ns.set i .hr }
  /-- 311 -/
  | hr (s) (i : Nat) : s.ns[i]? = some .hr → Step win fail s { s with hrDone := true, ns := s.ns.set i .swap }
  /-- 314-317 -/
  | swap (s) (i : Nat) : s.ns[i]? = some .swap → Step win fail s { s with deleg := 0, ns := s.ns.set i (.inv s.deleg) }
  /-- 319-323: one handler is called with the status of this moment -/
  | invoke (s) (i k : Nat) : s.ns[i]? = some (.inv (k + 1)) →
      Step win fail s { s with queue := s.queue + post s.status, ns := s.ns.set i (.inv k) }
  | done (s) (i : Nat) : s.ns[i]? = some (.inv 0) → Step win fail s { s with ns := s.ns.set i .over }
  /-- the runner takes the `Wait` from its queue -/
  | pop (s) : s.r = .idle → 0 < s.queue → Step win fail s { s with queue := s.queue - 1, r := .start }
  /-- 523-524 -/
  | runCancel (s) : s.r = .start → s.canceled = true → Step win fail s { s with r := .idle }
  | runGo (s) : s.r = .start → s.canceled = false → Step win fail s { s with r := .get }
  /-- 531: the callback is called with the result -/
  | get (s) : s.r = .get → s.hrDone = true → Step win fail s { s with r := .cb, got := s.got ++ [s.res] }
  /-- the callback does not want to be called again -/
  | cbFalse (s) : s.r = .cb → Step win fail s { s with r := .idle, ended := true }
  /-- the callback wants to be called again (540-542) -/
  | cbTrue (s) : s.r = .cb → Step win fail s { s with r := .reset1 }
  /-- 606 -/
  | reset1 (s) : s.r = .reset1 → (win = false → .swap ∉ s.ns) → Step win fail s { s with hrDone := false, r := .reset2 }
  /-- 607 -/
  | reset2 (s) : s.r = .reset2 → Step win fail s { s with status := .started, resets := s.resets + 1, r := .setw }
  /-- 547: registered -/
  | setw (s) : s.r = .setw → s.status ≠ .canceled → Step win fail s { s with armed := true, r := .inst }
  /-- 547: `SetWaitInternal` finds it cancelled (386) -/
  | setwCancel (s) : s.r = .setw → s.status = .canceled → Step win fail s { s with r := .inst }
  /-- 547: registration fails, `SetErrorCode` (TaskRunnerDispatchImpl.cpp 165-171) wins -/
  | setwFail (s) : fail = true → s.r = .setw → s.status = .started →
      Step win fail s { s with status := .error, ns := s.ns ++ [.hr], r := .inst }
  /-- 548, Async.h 289-296: the handler is linked -/
  | inst (s) : s.r = .inst → s.status = .started → Step win fail s { s with deleg := s.deleg + 1, r := .idle }
  /-- 548, 569-572: already complete, `OnCompleted` at once -/
  | instDone (s) : s.r = .inst → s.status ≠ .started → Step win fail s { s with queue := s.queue + post s.status, r := .idle }
  /-- `Wait::Cancel` 557-560, the operation's `Cancel` wins (577) -/
  | cancel (s) : s.status = .started →
      Step win fail s { s with canceled := true, status := .canceled, ns := s.ns ++ [.hr] }
  /-- `Wait::Cancel`, the operation's `Cancel` loses -/
  | cancelLose (s) : s.status ≠ .started → Step win fail s { s with canceled := true }

/-- `CreateWait` 338-360: the handler is installed, the wait registered. -/
def init : St := {}

inductive Reach (win fail : Bool) : St → Prop
  | init : Reach win fail init
  | step {s s'} : Reach win fail s → Step win fail s s' → Reach win fail s'

inductive Steps (win fail : Bool) : St → St → Prop
  | refl (s) : Steps win fail s s
  | tail {s t u} : Steps win fail s t → Step win fail t u → Steps win fail s u

end Verif.WaitTask
