import Verif.Common.Sum
/-!
# Model of asynchronous operations (include/YY/Base/Threading/Async.h, Task.h)

One asynchronous operation used by any number of threads that complete it (`Resolve`, `SetErrorCode`, `SetExceptionPtr`, `Cancel`),
attach continuations (`Task::Then` = `AddCompletedHandler`, and `OnCompleted` by the caller itself when that is refused) and remove handlers.
Every read or write of a shared field is one step; the `SRWLock` is a flag held between `Lock` and `Unlock`.

Simplifications: values, exception pointers and error codes are numbers; the handler list is a sequence (justified by C57); each handler object is attached
at most once; a continuation runs where `OnCompleted` is called (no posting to a runner) and has no cancellation token of its own.
A cancellation token of the operation makes `Resolve` call `Cancel` instead (436-443): that is the same as some thread calling `Cancel`.
-/
namespace Verif.Async
open Verif.Common

/-- `AsyncStatus` (Async.h 21-31) -/
inductive Status where | started | completed | canceled | error
deriving DecidableEq

def S_OK : Nat := 0
def E_PENDING : Nat := 0x8000000A
def E_UNEXPECTED : Nat := 0x8000FFFF
/-- `__HRESULT_FROM_WIN32(ERROR_CANCELLED)` -/
def E_CANCELLED : Nat := 0x800704C7

/-- `if (_hr == E_PENDING || _hr == S_OK) _hr = E_UNEXPECTED` (Async.h 216-219, 234-237) -/
def norm (hr : Nat) : Nat := if hr = E_PENDING ∨ hr = S_OK then E_UNEXPECTED else hr

/-- A completing call with its arguments. -/
inductive Kind where
  /-- `Resolve(value)` 436-471 -/
  | resolve (v : Nat)
  /-- `SetErrorCode(hr)` 209-223 -/
  | error (hr : Nat)
  /-- `SetExceptionPtr(eptr, hr)` 225-241 -/
  | exc (x : Nat) (hr : Nat)
  /-- `Cancel()` 108-117 -/
  | cancel
deriving DecidableEq

/-- the status passed to the compare-exchange -/
def Kind.status : Kind → Status
  | .resolve _ => .completed
  | .error _ => .error
  | .exc _ _ => .error
  | .cancel => .canceled
/-- what is written to `oResult` / `eptr` before `NotifyCompletedHandlers` -/
def Kind.value : Kind → Option Nat
  | .resolve v => some v
  | _ => none
def Kind.eptr : Kind → Option Nat
  | .exc x _ => some x
  | _ => none
/-- the argument of `NotifyCompletedHandlers` -/
def Kind.hr : Kind → Nat
  | .resolve _ => S_OK
  | .error hr => norm hr
  | .exc _ hr => norm hr
  | .cancel => E_CANCELLED

/-- What becomes of a continuation. -/
inductive Outcome where
  /-- its callback was run with this value -/
  | ran (v : Option Nat)
  /-- it completed with this exception pointer and error code -/
  | failed (x : Option Nat) (hr : Nat)
deriving DecidableEq

/-- Where a thread is. `late = some b`: the handler call is made by an attaching thread that was refused, `b` says whether the operation's error code was
already published when it was refused (specification only). `rest`: handlers this thread still has to notify. -/
inductive PC where
  | idle
  /-- won the compare-exchange, next writes value / exception pointer -/
  | writeValue (k : Kind)
  /-- next writes `hr` (311) -/
  | writeHr (k : Kind)
  /-- next takes the lock and swaps the list (315-318) -/
  | swap
  /-- in `Invoke` of the swapped list (320-324) -/
  | invoke (rest : List Nat)
  /-- in `AddCompletedHandler` (282-297), lock held, status not yet read -/
  | addLocked (h : Nat)
  /-- lock held, status read as `Started`, next pushes and unlocks -/
  | addPush (h : Nat)
  /-- `AddCompletedHandler` returned false, next reads the status for `OnCompleted` (Task.h 127-130) -/
  | refused (h : Nat) (published : Bool)
  /-- in `OnCompleted(op, st)` (Task.h 485-512) of handler `h` -/
  | call (h : Nat) (st : Status) (late : Option Bool) (rest : List Nat)
  /-- there, exception pointer already read -/
  | gotEptr (h : Nat) (x : Option Nat) (late : Option Bool) (rest : List Nat)
  /-- there, error code already read -/
  | gotHr (h : Nat) (hr : Nat) (late : Option Bool) (rest : List Nat)
deriving DecidableEq

structure St where
  status : Status := .started
  hr : Nat := E_PENDING
  eptr : Option Nat := none
  value : Option Nat := none
  locked : Bool := false
  /-- `oCompletedDelegate` -/
  reg : List Nat := []
  threads : List PC
  -- observations
  /-- the completing calls that returned true -/
  wins : List Kind := []
  /-- every handler given to an attaching call -/
  attached : List Nat := []
  /-- attaching calls that returned true / false, removals that returned true -/
  accepted : List Nat := []
  refused : List Nat := []
  removed : List Nat := []
  /-- calls of `OnCompleted` by the completing thread / by refused attachers -/
  called : List Nat := []
  lateCalled : List Nat := []
  /-- what became of continuations -/
  outcomes : List (Nat × Option Bool × Outcome) := []

/-- where a thread continues after a handler call -/
def after (late : Option Bool) (rest : List Nat) : PC := if late.isSome then .idle else .invoke rest

inductive Step : St → St → Prop
  /-- compare-exchange of the status, lost (201-204): the call returns false -/
  | lose (s : St) (i : Nat) (k : Kind) (h : s.threads[i]? = some .idle) (hs : s.status ≠ .started) : Step s s
  /-- compare-exchange of the status, won -/
  | win (s : St) (i : Nat) (k : Kind) (h : s.threads[i]? = some .idle) (hs : s.status = .started) :
      Step s { s with status := k.status, wins := k :: s.wins, threads := s.threads.set i (.writeValue k) }
  | writeValue (s : St) (i : Nat) (k : Kind) (h : s.threads[i]? = some (.writeValue k)) :
      Step s { s with value := k.value, eptr := k.eptr, threads := s.threads.set i (.writeHr k) }
  | writeHr (s : St) (i : Nat) (k : Kind) (h : s.threads[i]? = some (.writeHr k)) :
      Step s { s with hr := k.hr, threads := s.threads.set i .swap }
  | swap (s : St) (i : Nat) (h : s.threads[i]? = some .swap) (hl : s.locked = false) :
      Step s { s with reg := [], threads := s.threads.set i (.invoke s.reg) }
  /-- next handler: `OnCompleted(this, GetStatus())` -/
  | invoke (s : St) (i : Nat) (x : Nat) (rest : List Nat) (h : s.threads[i]? = some (.invoke (x :: rest))) :
      Step s { s with called := x :: s.called, threads := s.threads.set i (.call x s.status none rest) }
  | invokeEnd (s : St) (i : Nat) (h : s.threads[i]? = some (.invoke [])) :
      Step s { s with threads := s.threads.set i .idle }
  /-- `AddCompletedHandler` takes the lock (289) -/
  | addLock (s : St) (i : Nat) (x : Nat) (h : s.threads[i]? = some .idle) (hl : s.locked = false) (hx : x ∉ s.attached) :
      Step s { s with locked := true, attached := x :: s.attached, threads := s.threads.set i (.addLocked x) }
  /-- status read as `Started` (290) -/
  | addOk (s : St) (i : Nat) (x : Nat) (h : s.threads[i]? = some (.addLocked x)) (hs : s.status = .started) :
      Step s { s with threads := s.threads.set i (.addPush x) }
  /-- status read as something else: unlock, return false (290-293) -/
  | addRefuse (s : St) (i : Nat) (x : Nat) (h : s.threads[i]? = some (.addLocked x)) (hs : s.status ≠ .started) :
      Step s { s with locked := false, refused := x :: s.refused,
                      threads := s.threads.set i (.refused x (decide (s.hr ≠ E_PENDING))) }
  /-- `AddHandler`, unlock, return true (295) -/
  | addPush (s : St) (i : Nat) (x : Nat) (h : s.threads[i]? = some (.addPush x)) :
      Step s { s with locked := false, reg := s.reg ++ [x], accepted := x :: s.accepted, threads := s.threads.set i .idle }
  /-- `RemoveCompletedHandler` (299-306), list operation done under the lock in one step -/
  | remove (s : St) (i : Nat) (x : Nat) (h : s.threads[i]? = some .idle) (hl : s.locked = false) (hx : x ∈ s.reg) :
      Step s { s with reg := s.reg.erase x, removed := x :: s.removed }
  /-- the refused attacher calls `OnCompleted(op, op->GetStatus())` -/
  | lateCall (s : St) (i : Nat) (x : Nat) (p : Bool) (h : s.threads[i]? = some (.refused x p)) :
      Step s { s with lateCalled := x :: s.lateCalled, threads := s.threads.set i (.call x s.status (some p) []) }
  /-- `OnCompleted` with `Completed`: `GetResult` waits until `hr` is published, then the callback runs with the value (Task.h 494-500, Async.h 425-429, 135-190) -/
  | callOk (s : St) (i : Nat) (x : Nat) (late : Option Bool) (rest : List Nat) (h : s.threads[i]? = some (.call x .completed late rest))
      (hh : s.hr ≠ E_PENDING) :
      Step s { s with outcomes := (x, late, .ran s.value) :: s.outcomes, threads := s.threads.set i (after late rest) }
  /-- `OnCompleted` with another status reads exception pointer and error code in either order (Task.h 488-492) -/
  | readEptr (s : St) (i : Nat) (x : Nat) (st : Status) (late : Option Bool) (rest : List Nat) (h : s.threads[i]? = some (.call x st late rest))
      (hst : st ≠ .completed) :
      Step s { s with threads := s.threads.set i (.gotEptr x s.eptr late rest) }
  | readHr (s : St) (i : Nat) (x : Nat) (st : Status) (late : Option Bool) (rest : List Nat) (h : s.threads[i]? = some (.call x st late rest))
      (hst : st ≠ .completed) :
      Step s { s with threads := s.threads.set i (.gotHr x s.hr late rest) }
  /-- … and completes the continuation with them through `SetExceptionPtr` -/
  | failE (s : St) (i : Nat) (x : Nat) (e : Option Nat) (late : Option Bool) (rest : List Nat) (h : s.threads[i]? = some (.gotEptr x e late rest)) :
      Step s { s with outcomes := (x, late, .failed e (norm s.hr)) :: s.outcomes, threads := s.threads.set i (after late rest) }
  | failH (s : St) (i : Nat) (x : Nat) (hr : Nat) (late : Option Bool) (rest : List Nat) (h : s.threads[i]? = some (.gotHr x hr late rest)) :
      Step s { s with outcomes := (x, late, .failed s.eptr (norm hr)) :: s.outcomes, threads := s.threads.set i (after late rest) }

def Init (s : St) : Prop := ∃ n, s = { threads := List.replicate n .idle }

inductive Reach : St → Prop
  | init (s : St) (h : Init s) : Reach s
  | step (s s' : St) (h : Reach s) (hs : Step s s') : Reach s'

end Verif.Async
