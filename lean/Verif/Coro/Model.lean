import Verif.Common.Sum

/-!
# Model of coroutines

`Promise` and `TaskAwaiter` (include/YY/Base/Threading/Task.h 726-909), `Task::operator co_await` (112-115), over `AsyncOperation` (include/YY/Base/Threading/Async.h 108-245, 282-325, 425-471).

One coroutine that awaits any number of operations, one after the other; each operation is completed by some other thread. The body is arbitrary: it awaits, catches or not, returns or throws.
Every look at or change of shared state is a step; `AddCompletedHandler` and the swap of the handler list hold the lock and are one step each. A thread is known by the task runner it belongs to (`TaskRunner::GetCurrent`), `none` for none.
The coroutine frame holds the promise, the awaiter and all locals. Resuming or notifying a frame that is gone, or running already, is undefined: `bad`.

Simplifications: `IsCanceled` (Async.h 119-127) reads status and token at once; an operation has other handlers, which do not matter here; an allocation never fails.
`sp`: may `WaitOnAddress` return without a change of the word (as its documentation allows)?
-/
namespace Verif.Coro
open Verif.Common

/-- how an operation ends -/
inductive Kind where
  | val (v : Nat)
  | exc (x : Nat)
  | canceled
deriving DecidableEq

/-- where the completing thread of an operation is -/
inductive Stage where
  /-- nobody has won the compare-exchange -/
  | started
  /-- `eStatus` is set (Async.h 201, 211, 227, 444) -/
  | won
  /-- value or exception pointer is written (449, 468, 232) -/
  | wrote
  /-- `hr` is written, waiters are woken (311-312) -/
  | published
  /-- the handler list was swapped (314-317) -/
  | swapped
deriving DecidableEq

structure Op where
  kind : Option Kind := none
  stage : Stage := .started
  /-- cancellation requested by the token -/
  token : Bool := false
  /-- the awaiter is in `oCompletedDelegate` -/
  listed : Bool := false
  /-- the completing thread has the awaiter in its own list (318-323) -/
  held : Bool := false
  /-- runner of the completing thread -/
  place : Option Nat := none
  /-- `pResumeTaskRunnerWeak` of the awaiter -/
  home : Option Nat := none
deriving DecidableEq

/-- `IsCanceled` (119-127) -/
def Op.isCanceled (o : Op) : Bool :=
  match o.kind with
  | some (.val _) => false
  | some .canceled => true
  | _ => o.token

/-- what `co_await` gives to the body -/
inductive Outcome where
  | val (v : Nat)
  | exc (x : Nat)
  /-- `OperationCanceledException` -/
  | canceled
  /-- `Exception(E_FAIL)` of lines 172, 193 -/
  | failed
  /-- a value or an exception that is not yet there -/
  | garbage
deriving DecidableEq

/-- what the code in the frame is at -/
inductive Run where
  /-- it does not run -/
  | idle
  | body
  /-- `await_ready` (844-852) -/
  | ready
  /-- the check in `await_suspend` (856-859) -/
  | check
  /-- `AddCompletedHandler` (862) -/
  | add
  /-- `await_resume`: `ThrowIfWaitTaskFailed` 165 -/
  | get0
  /-- `WaitTask` 141 -/
  | get1
  /-- `WaitOnAddress` 160 -/
  | get2
  /-- the `switch` 175 -/
  | get3
deriving DecidableEq

inductive Frame where
  | live
  /-- the body came to its end; `final_suspend` never suspends (743-746) -/
  | ended
  /-- `hCoroutine.destroy()` (905) -/
  | destroyed
deriving DecidableEq

structure St where
  run : Run := .body
  /-- the runner of the thread that executes the frame -/
  at_ : Option Nat
  ops : List Op := []
  frame : Frame := .live
  /-- posted closures (897-901): the runner -/
  queue : List Nat := []
  /-- closures dropped without being run -/
  lost : Nat := 0
  /-- has the runner gone (`WeakPtr::Get` gives null)? -/
  dead : Nat → Bool := fun _ => false
  /-- does its `PostTask` fail? -/
  stopped : Nat → Bool := fun _ => false
  /-- the coroutine's own operation (731, 779) -/
  own : Option Kind := none
  /-- results of `co_await`: operation and outcome -/
  log : List (Nat × Outcome) := []
  suspends : Nat := 0
  resumes : Nat := 0
  bad : Bool := false

def setOp (s : St) (i : Nat) (o : Op) : St := { s with ops := s.ops.set i o }

/-- `hCoroutine.resume()` by a thread of runner `c` -/
def resume (s : St) (c : Option Nat) : St :=
  if s.frame = .live ∧ s.run = .idle then { s with run := .get0, at_ := c, resumes := s.resumes + 1 } else { s with bad := true }

/-- `TaskAwaiter::OnCompleted` (874-907) for operation `o`; the awaiter lives in the frame -/
def onCompleted (s : St) (o : Op) : St :=
  if s.frame ≠ .live then { s with bad := true }
  else
    match o.home with
    | none => resume s o.place
    | some r =>
      if s.dead r then { s with frame := .destroyed }
      else if o.place = some r then resume s o.place
      else if s.stopped r then { s with lost := s.lost + 1 }
      else { s with queue := r :: s.queue }

/-- what `GetResult` finds after the wait (175-195, 428) -/
def outcome (o : Op) : Outcome :=
  match o.kind, o.stage with
  | none, _ => .failed
  | some .canceled, _ => .canceled
  | some _, .started => .garbage
  | some _, .won => .garbage
  | some (.val v), _ => .val v
  | some (.exc x), _ => .exc x

/-- the operation awaited last -/
def cur (s : St) : Nat := s.ops.length - 1

/-- the end of an `await`: the body goes on -/
def give (s : St) (r : Outcome) : St := { s with run := .body, log := s.log ++ [(cur s, r)] }

inductive Step (sp : Bool) : St → St → Prop
  /-- `co_await` of an operation (112-115): the awaiter takes the current runner -/
  | await {s} : s.run = .body → Step sp s { s with run := .ready, ops := s.ops ++ [{ home := s.at_ }] }
  | ready {s o} : s.run = .ready → s.ops[cur s]? = some o → Step sp s { s with run := if o.isCanceled || o.kind.isSome then .get0 else .check }
  | check {s o} : s.run = .check → s.ops[cur s]? = some o → Step sp s { s with run := if o.isCanceled then .get0 else .add }
  /-- `AddCompletedHandler` refuses -/
  | addNo {s o} : s.run = .add → s.ops[cur s]? = some o → o.kind ≠ none → Step sp s { s with run := .get0 }
  /-- it accepts: `await_suspend` returns `true`, the coroutine is suspended -/
  | addYes {s o} : s.run = .add → s.ops[cur s]? = some o → o.kind = none →
      Step sp s { setOp s (cur s) { o with listed := true } with run := .idle, suspends := s.suspends + 1 }
  | get0 {s o} : s.run = .get0 → s.ops[cur s]? = some o → Step sp s (if o.isCanceled then give s .canceled else { s with run := .get1 })
  | get1 {s o} : s.run = .get1 → s.ops[cur s]? = some o → Step sp s (if o.isCanceled then give s .failed else { s with run := .get2 })
  | get2 {s o} : s.run = .get2 → s.ops[cur s]? = some o → (o.stage = .published ∨ o.stage = .swapped ∨ sp = true) → Step sp s { s with run := .get3 }
  | get3 {s o} : s.run = .get3 → s.ops[cur s]? = some o → Step sp s (give s (outcome o))
  /-- `return_value`, `return_void` (748-756, 796-807), `unhandled_exception` (758-772): an operation that is over stays as it is. Then the frame is freed. -/
  | finish {s} (k : Kind) : s.run = .body → k ≠ .canceled → Step sp s { s with run := .idle, frame := .ended, own := s.own.or (some k) }
  /-- somebody cancels the coroutine's own operation -/
  | cancel {s} : s.own = none → Step sp s { s with own := some .canceled }
  /-- the awaited operation is completed by a thread of runner `c` -/
  | win {s i o} (k : Kind) (c : Option Nat) : s.ops[i]? = some o → o.kind = none → Step sp s (setOp s i { o with kind := some k, stage := .won, place := c })
  | write {s i o} : s.ops[i]? = some o → o.stage = .won → Step sp s (setOp s i { o with stage := .wrote })
  | publish {s i o} : s.ops[i]? = some o → o.stage = .wrote → Step sp s (setOp s i { o with stage := .published })
  | swap {s i o} : s.ops[i]? = some o → o.stage = .published → Step sp s (setOp s i { o with stage := .swapped, listed := false, held := o.listed })
  | notify {s i o} : s.ops[i]? = some o → o.held = true → Step sp s (onCompleted (setOp s i { o with held := false }) o)
  | token {s i o} : s.ops[i]? = some o → Step sp s (setOp s i { o with token := true })
  /-- a runner executes a posted closure (898-901) -/
  | exec {s q1 r q2} : s.queue = q1 ++ r :: q2 → Step sp s (resume { s with queue := q1 ++ q2 } (some r))
  /-- a runner that stops drops it -/
  | drop {s q1 r q2} : s.queue = q1 ++ r :: q2 → s.stopped r = true → Step sp s { s with queue := q1 ++ q2, lost := s.lost + 1 }
  | stop {s} (r : Nat) : Step sp s { s with stopped := fun x => x = r || s.stopped x }
  | die {s} (r : Nat) : Step sp s { s with dead := fun x => x = r || s.dead x }

inductive Reach (sp : Bool) (c : Option Nat) : St → Prop
  | init : Reach sp c { at_ := c }
  | step {s t} : Reach sp c s → Step sp s t → Reach sp c t

inductive Steps (sp : Bool) (s : St) : St → Prop
  | refl : Steps sp s s
  | step {t u} : Steps sp s t → Step sp t u → Steps sp s u

end Verif.Coro
