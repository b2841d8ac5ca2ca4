import Verif.Async.Model
/-!
# Model of `WhenAll` (include/YY/Base/Threading/Task.h 216-283)

Any number of tasks, any number of threads.  Thread 0 is the one that calls `WhenAll`.  Every access to a shared field is one step.

Simplifications: of a task only the winning completing call, its published error code, its lock and whether the `WhenAll` handler stands in its handler list are
modelled (`Verif.Async` has the rest); the tasks outlive the operation (it holds references to them); `Resolve` of the operation itself is one step
(Async.h 436-471, `Verif.Async`), as is a user's `Cancel` of it; the C-style cast of `AsyncOperation<T>*` to `AsyncOperation<void>*` (274) is taken to work.
-/
namespace Verif.When.All
open Verif.Common
open Verif.Async (Status Kind E_PENDING S_OK E_CANCELLED E_UNEXPECTED norm)

/-- a task given to `WhenAll` -/
structure Op where
  /-- `GetAsyncOperation()` is null -/
  null : Bool
  /-- the completing call that won (C49: at most one) -/
  kind : Option Kind := none
  /-- `hr` (Async.h 45) -/
  hr : Nat := E_PENDING
  /-- `oSRWLock` is held by the thread that adds the handler -/
  locked : Bool := false
  /-- the `WhenAll` handler stands in `oCompletedDelegate` -/
  listed : Bool := false
deriving DecidableEq

/-- `GetStatus()` -/
def Op.status (o : Op) : Status := match o.kind with | none => .started | some k => k.status

/-- where a thread is; `h` counts the references `_pThis` on its stack (`OnCompleted` and `InstallCompletedHandler` call each other) -/
inductive PC where
  | idle
  /-- won the compare-exchange of task `j`, next publishes the error code (Async.h 380) -/
  | writeHr (j : Nat) (k : Kind)
  /-- next takes the lock of task `j` and swaps its list (383-387) -/
  | swap (j : Nat)
  /-- the `WhenAll` handler was in the swapped list, next calls its `OnCompleted(task, GetStatus())` (389-393) -/
  | invoke (j : Nat)
  /-- at the start of `InstallCompletedHandler` (231) -/
  | install (h : Nat)
  /-- `AddRef` done, index computed (239-240), next `AddCompletedHandler` or the null case -/
  | add (j h : Nat)
  /-- in `AddCompletedHandler`, lock held -/
  | addLocked (j h : Nat)
  /-- there, status read as `Started` -/
  | addPush (j h : Nat)
  /-- `AddCompletedHandler` returned false, next reads the status for `OnCompleted` (249) -/
  | refused (j h : Nat)
  /-- in `OnCompleted` (254) -/
  | handler (j : Nat) (st : Status) (h : Nat)
  /-- the error code `_hr` is known (260), next the compare-exchange (261) -/
  | gotHr (j e h : Nat)
  /-- next `--cchPendingTasks` (264) -/
  | dec (j h : Nat)
  /-- next `Resolve(hrFirstError)` (267) -/
  | resolve (h : Nat)
  /-- returning; `h` references on the stack are released one by one -/
  | unwind (h : Nat)
deriving DecidableEq

structure St where
  ops : List Op
  /-- `cchPendingTasks`, `hrFirstError` (225-226) -/
  pend : Nat
  first : Nat := S_OK
  /-- the operation's own state: not completed / cancelled by the user / resolved with a value -/
  own : Option (Option Nat) := none
  /-- reference count; references of the user (the creator's local pointer, the returned `Task` and its copies) -/
  ref : Nat := 1
  user : Nat := 1
  /-- `WhenAll` has not returned yet -/
  creating : Bool := true
  threads : List PC
  -- observations
  /-- how often the object was destroyed -/
  freed : Nat := 0
  /-- calls of `Resolve` -/
  resolves : List Nat := []
  /-- tasks that refused the handler before their error code was published -/
  raced : List Nat := []

/-- `Release` -/
def rel (ref freed : Nat) : Nat × Nat := (ref - 1, if ref = 1 then freed + 1 else freed)

inductive Step : St → St → Prop
  /-- some thread completes task `j` (compare-exchange of the status) -/
  | win (s : St) (i j : Nat) (k : Kind) (o : Op) (h : s.threads[i]? = some .idle) (ho : s.ops[j]? = some o) (hn : o.null = false) (hk : o.kind = none) :
      Step s { s with ops := s.ops.set j { o with kind := some k }, threads := s.threads.set i (.writeHr j k) }
  | writeHr (s : St) (i j : Nat) (k : Kind) (o : Op) (h : s.threads[i]? = some (.writeHr j k)) (ho : s.ops[j]? = some o) :
      Step s { s with ops := s.ops.set j { o with hr := k.hr }, threads := s.threads.set i (.swap j) }
  | swap (s : St) (i j : Nat) (o : Op) (h : s.threads[i]? = some (.swap j)) (ho : s.ops[j]? = some o) (hl : o.locked = false) :
      Step s { s with ops := s.ops.set j { o with listed := false }, threads := s.threads.set i (if o.listed then .invoke j else .idle) }
  /-- the handler is called; `_pThis` takes over the reference (257) -/
  | invoke (s : St) (i j : Nat) (o : Op) (h : s.threads[i]? = some (.invoke j)) (ho : s.ops[j]? = some o) :
      Step s { s with threads := s.threads.set i (.handler j o.status 1) }
  /-- 232-235 -/
  | installNone (s : St) (i h : Nat) (hp : s.threads[i]? = some (.install h)) (h0 : s.pend = 0) :
      Step s { s with threads := s.threads.set i (.unwind h) }
  /-- 238-240 -/
  | install (s : St) (i h : Nat) (hp : s.threads[i]? = some (.install h)) (h0 : s.pend ≠ 0) :
      Step s { s with ref := s.ref + 1, threads := s.threads.set i (.add (s.ops.length - s.pend) h) }
  /-- 241-245 -/
  | addNull (s : St) (i j h : Nat) (o : Op) (hp : s.threads[i]? = some (.add j h)) (ho : s.ops[j]? = some o) (hn : o.null = true) :
      Step s { s with threads := s.threads.set i (.handler j .completed (h + 1)) }
  | addLock (s : St) (i j h : Nat) (o : Op) (hp : s.threads[i]? = some (.add j h)) (ho : s.ops[j]? = some o) (hn : o.null = false) (hl : o.locked = false) :
      Step s { s with ops := s.ops.set j { o with locked := true }, threads := s.threads.set i (.addLocked j h) }
  | addOk (s : St) (i j h : Nat) (o : Op) (hp : s.threads[i]? = some (.addLocked j h)) (ho : s.ops[j]? = some o) (hs : o.status = .started) :
      Step s { s with threads := s.threads.set i (.addPush j h) }
  | addRefuse (s : St) (i j h : Nat) (o : Op) (hp : s.threads[i]? = some (.addLocked j h)) (ho : s.ops[j]? = some o) (hs : o.status ≠ .started) :
      Step s { s with ops := s.ops.set j { o with locked := false }, threads := s.threads.set i (.refused j h),
                      raced := if o.hr = E_PENDING then j :: s.raced else s.raced }
  /-- the handler is listed, `InstallCompletedHandler` returns -/
  | addPush (s : St) (i j h : Nat) (o : Op) (hp : s.threads[i]? = some (.addPush j h)) (ho : s.ops[j]? = some o) :
      Step s { s with ops := s.ops.set j { o with locked := false, listed := true }, threads := s.threads.set i (.unwind h) }
  /-- 249, 257 -/
  | refused (s : St) (i j h : Nat) (o : Op) (hp : s.threads[i]? = some (.refused j h)) (ho : s.ops[j]? = some o) :
      Step s { s with threads := s.threads.set i (.handler j o.status (h + 1)) }
  /-- 258 -/
  | handlerOk (s : St) (i j h : Nat) (hp : s.threads[i]? = some (.handler j .completed h)) :
      Step s { s with threads := s.threads.set i (.dec j h) }
  /-- 260 -/
  | handlerCancel (s : St) (i j h : Nat) (hp : s.threads[i]? = some (.handler j .canceled h)) :
      Step s { s with threads := s.threads.set i (.gotHr j E_CANCELLED h) }
  | handlerErr (s : St) (i j h : Nat) (st : Status) (o : Op) (hp : s.threads[i]? = some (.handler j st h)) (h1 : st ≠ .completed) (h2 : st ≠ .canceled)
      (ho : s.ops[j]? = some o) :
      Step s { s with threads := s.threads.set i (.gotHr j o.hr h) }
  /-- 261 -/
  | cas (s : St) (i j e h : Nat) (hp : s.threads[i]? = some (.gotHr j e h)) :
      Step s { s with first := if s.first = S_OK then e else s.first, threads := s.threads.set i (.dec j h) }
  /-- 264-272 -/
  | dec (s : St) (i j h : Nat) (hp : s.threads[i]? = some (.dec j h)) :
      Step s { s with pend := s.pend - 1, threads := s.threads.set i (if s.pend - 1 = 0 then .resolve h else .install h) }
  /-- 267; refused if the user has cancelled the operation -/
  | resolve (s : St) (i h : Nat) (hp : s.threads[i]? = some (.resolve h)) :
      Step s { s with own := if s.own = none then some (some s.first) else s.own, resolves := s.first :: s.resolves, threads := s.threads.set i (.unwind h) }
  /-- the destructor of `_pThis` -/
  | unwind (s : St) (i h : Nat) (hp : s.threads[i]? = some (.unwind (h + 1))) :
      Step s { s with ref := (rel s.ref s.freed).1, freed := (rel s.ref s.freed).2, threads := s.threads.set i (.unwind h) }
  | unwindEnd (s : St) (i : Nat) (hp : s.threads[i]? = some (.unwind 0)) :
      Step s { s with creating := if i = 0 then false else s.creating, threads := s.threads.set i .idle }
  /-- the user cancels the operation, copies or drops a `Task` -/
  | cancel (s : St) (hu : s.user ≠ 0) (hc : s.creating = false) (h0 : s.own = none) : Step s { s with own := some none }
  | copy (s : St) (hu : s.user ≠ 0) (hc : s.creating = false) : Step s { s with user := s.user + 1, ref := s.ref + 1 }
  | drop (s : St) (hu : s.user ≠ 0) (hc : s.creating = false) :
      Step s { s with user := s.user - 1, ref := (rel s.ref s.freed).1, freed := (rel s.ref s.freed).2 }

/-- `WhenAll` of at least one task is called; some of them may be null -/
def Init (s : St) : Prop := ∃ ns n, ns ≠ [] ∧
  s = { ops := ns.map fun b => { null := b }, pend := ns.length, threads := .install 0 :: List.replicate n .idle }

inductive Reach : St → Prop
  | init (s : St) (h : Init s) : Reach s
  | step (s s' : St) (h : Reach s) (hs : Step s s') : Reach s'

end Verif.When.All
