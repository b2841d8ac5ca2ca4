/-!
# Model of task chains

`Task::Then`, `ThenError`, `ThenErrorIf` (include/YY/Base/Threading/Task.h 118-207), `TaskAsyncOperation` (373-468), `TaskContinueAsyncOperation` (470-558), `TaskErrorAsyncOperation` (560-724),
`TaskRunner::CreateTask` (TaskRunner.h 248-302), `AsyncInfo::CreateExceptionPtr` (Async.h 64-97).

Any graph of tasks: roots completed by anybody, tasks created on a runner, continuations for values and for errors, each with the runner its callback is to be executed on.
Every node goes through phases; runners may stop or go away and tasks may be canceled between any two steps. A thread is known by its runner, `none` for none.

Simplifications: a source notifies each continuation once after it is complete, with its result published (that is C49-C51 of `Async`, where the race in between is kept);
`void` is the value 0; the callback is a function of its argument; a shared cancellation token is a flag per node which may be raised at any time; allocation never fails.
-/
namespace Verif.Chain

@[irreducible] def E_FAIL : Nat := 0x80004005
@[irreducible] def E_PENDING : Nat := 0x8000000A
@[irreducible] def E_UNEXPECTED : Nat := 0x8000FFFF
/-- `__HRESULT_FROM_WIN32(ERROR_CANCELLED)` -/
@[irreducible] def E_CANCELLED : Nat := 0x800704C7

/-- exceptions: of the user (`code` for those derived from `YY::Exception`), `OperationCanceledException`, `Exception(hr)` -/
inductive Exc where
  | user (x : Nat) (code : Option Nat)
  | opCanceled
  | ofCode (hr : Nat)
deriving DecidableEq

/-- the code stored with an exception (Task.h 407-416; Exception.h 51-58) -/
def Exc.code : Exc → Nat
  | .user _ c => c.getD E_FAIL
  | .opCanceled => E_CANCELLED
  | .ofCode hr => hr

/-- the end of an operation: `Completed`, `Error` with exception pointer and `hr`, `Canceled` -/
inductive Res where
  | ok (v : Nat)
  | err (x : Option Exc) (hr : Nat)
  | canceled
deriving DecidableEq

/-- Async.h 216-219, 234-237 -/
def norm (hr : Nat) : Nat := if hr = E_PENDING ∨ hr = 0 then E_UNEXPECTED else hr

/-- what a callback does -/
inductive Out (α : Type) where
  | ret (a : α)
  | throw (e : Exc)

inductive Kind where
  /-- an operation completed by somebody: I/O, timer, the user -/
  | root
  /-- `CreateTask` -/
  | task (f : Out Nat)
  /-- `Then` -/
  | next (src : Nat) (f : Nat → Out Nat)
  /-- `ThenError` with a callback that gives a value -/
  | err (src : Nat) (g : Exc → Out Nat)
  /-- `ThenError` with a callback that gives a task: none (an empty task) or one that ends some time as given -/
  | errTask (src : Nat) (g : Exc → Out (Option Res))

/-- `ThenErrorIf` (Task.h 178-197): the callback only for exceptions that match, the others are thrown again -/
def filter {α : Type} (p : Exc → Bool) (g : Exc → Out α) : Exc → Out α := fun e => if p e then g e else .throw e

structure Node where
  kind : Kind
  /-- `pResumeTaskRunnerWeak`, for `task` the runner itself -/
  home : Option Nat

inductive Phase where
  /-- waits for its source -/
  | idle
  /-- its closure is in the queue of the runner -/
  | posted (r : Nat)
  /-- in `Resume` before `IsCanceled`, on a thread of this runner -/
  | begun (c : Option Nat)
  /-- in the callback -/
  | calling (c : Option Nat)
  /-- the callback has ended: what is stored next -/
  | got (r : Res)
  /-- the callback gave a task that ends like this (Task.h 705-709) -/
  | inner (r : Res)
  | over
  /-- its closure was dropped -/
  | lost
deriving DecidableEq

structure St where
  ph : Nat → Phase := fun _ => .idle
  res : Nat → Option Res := fun _ => none
  tok : Nat → Bool := fun _ => false
  /-- the exception captured by the closure or passed to `Resume` (Task.h 589, 666) -/
  eptr : Nat → Option Exc := fun _ => none
  dead : Nat → Bool := fun _ => false
  stopped : Nat → Bool := fun _ => false
  /-- calls of callbacks: node, runner of the thread, end of the source (`none` for `CreateTask`) -/
  calls : List (Nat × Option Nat × Option Res) := []
  /-- specification only: nodes on which somebody called `Cancel` -/
  cancels : Nat → Bool := fun _ => false

def upd {α : Type} (f : Nat → α) (i : Nat) (a : α) : Nat → α := fun j => if j = i then a else f j

def setPh (s : St) (i : Nat) (p : Phase) : St := { s with ph := upd s.ph i p }

/-- compare-exchange of the status from `Started`, and the result (Async.h 199-241, 436-471) -/
def fill (s : St) (i : Nat) (r : Res) : St := if s.res i = none then { s with res := upd s.res i (some r) } else s

/-- `IsCanceled` (Async.h 119-127) -/
def isCanceled (s : St) (i : Nat) : Bool :=
  match s.res i with
  | some (.ok _) => false
  | some .canceled => true
  | _ => s.tok i

/-- `Resolve` (436-453) -/
def resolve (s : St) (i : Nat) (v : Nat) : St := if isCanceled s i then fill s i .canceled else fill s i (.ok v)

/-- `SetExceptionPtr(source->GetExceptionPtr(), source->GetErrorCode())` (Task.h 490, 639): what is stored for a source that did not succeed -/
def forward : Res → Res
  | .ok v => .ok v
  | .err x hr => .err x (norm hr)
  | .canceled => .err none (norm E_CANCELLED)

/-- an exception thrown by a callback (Task.h 407-416) -/
def thrown (e : Exc) : Res := .err (some e) (norm e.code)

/-- `CreateExceptionPtr` (Async.h 64-97) for a source that did not succeed; `tok`: its token asks for cancellation -/
def excOf (tok : Bool) : Res → Exc
  | .err (some x) _ => x
  | .err none hr => if tok then .opCanceled else .ofCode hr
  | .canceled => .opCanceled
  | .ok _ => .ofCode E_FAIL

/-- `pResumeTaskRunnerWeak.Get()` -/
def live (s : St) (h : Option Nat) : Option Nat :=
  match h with
  | some r => if s.dead r then none else some r
  | none => none

/-- `PostTask` of the closure, result ignored -/
def post (s : St) (i r : Nat) : St := if s.stopped r then setPh s i .lost else setPh s i (.posted r)

/-- `TaskContinueAsyncOperation::OnCompleted` (485-512, 530-557), called on a thread of runner `c` -/
def onNext (s : St) (i : Nat) (home c : Option Nat) : Res → St
  | .ok _ =>
    if home = none ∨ live s home = c then setPh s i (.begun c)
    else
      match live s home with
      | none => setPh (fill s i (.err none (norm E_CANCELLED))) i .over
      | some r => post s i r
  | r => setPh (fill s i (forward r)) i .over

/-- `TaskErrorAsyncOperation::OnCompleted` (576-602, 653-679) of source `j` -/
def onErr (s : St) (i j : Nat) (home c : Option Nat) : Res → St
  | .ok v => setPh (resolve s i v) i .over
  | r =>
    match live s home with
    | none => setPh { s with eptr := upd s.eptr i (some (excOf (s.tok j) r)) } i (.begun c)
    | some h =>
      if some h = c then setPh { s with eptr := upd s.eptr i (some (excOf (s.tok j) r)) } i (.begun c)
      else post { s with eptr := upd s.eptr i (some (excOf (s.tok j) r)) } i h

/-- the source of a node -/
def Kind.src : Kind → Option Nat
  | .next j _ => some j
  | .err j _ => some j
  | .errTask j _ => some j
  | _ => none

/-- how the callback ends (392-416, 683-720) for the value of the source or the exception captured; the second part: the callback gave a task -/
def outcome (k : Kind) (e : Option Exc) (rs : Option Res) : Res × Bool :=
  match k with
  | .task (.ret v) => (.ok v, false)
  | .task (.throw e) => (thrown e, false)
  | .next _ f =>
    match rs with
    | some (.ok v) => match f v with | .ret w => (.ok w, false) | .throw e => (thrown e, false)
    | _ => (.err none E_FAIL, false)
  | .err _ g =>
    match e with
    | some e => match g e with | .ret w => (.ok w, false) | .throw e => (thrown e, false)
    | none => (.err none E_FAIL, false)
  | .errTask _ g =>
    match e with
    | some e =>
      match g e with
      | .ret (some r') => (r', true)
      | .ret none => (.err none (norm E_FAIL), false)
      | .throw e => (thrown e, false)
    | none => (.err none E_FAIL, false)
  | .root => (.err none E_FAIL, false)

/-- storing an end: `Resolve` or `SetExceptionPtr` -/
def store (s : St) (i : Nat) : Res → St
  | .ok v => resolve s i v
  | r => fill s i r

inductive Step (cfg : List Node) : St → St → Prop
  /-- a root is completed; error codes are normalised on the way -/
  | root {s} {i : Nat} {n} (r : Res) : cfg[i]? = some n → n.kind = .root → s.ph i = .idle →
      Step cfg s (setPh (fill s i (match r with | .err x hr => .err x (norm hr) | r => r)) i .over)
  /-- `CreateTask` with a token that asks for cancellation (256-259) -/
  | createNo {s} {i : Nat} {n f} : cfg[i]? = some n → n.kind = .task f → s.ph i = .idle → s.tok i = true → Step cfg s (setPh (fill s i .canceled) i .over)
  /-- `CreateTask` posts (262-266) -/
  | create {s} {i : Nat} {n f r} : cfg[i]? = some n → n.kind = .task f → s.ph i = .idle → s.tok i = false → n.home = some r → Step cfg s (post s i r)
  /-- the source is complete, its thread (of runner `c`) or the attaching thread calls `OnCompleted` -/
  | next {s} {i : Nat} {n j f r} (c : Option Nat) : cfg[i]? = some n → n.kind = .next j f → s.ph i = .idle → s.res j = some r → Step cfg s (onNext s i n.home c r)
  | err {s} {i : Nat} {n j g r} (c : Option Nat) : cfg[i]? = some n → n.kind = .err j g → s.ph i = .idle → s.res j = some r → Step cfg s (onErr s i j n.home c r)
  | errTask {s} {i : Nat} {n j g r} (c : Option Nat) : cfg[i]? = some n → n.kind = .errTask j g → s.ph i = .idle → s.res j = some r → Step cfg s (onErr s i j n.home c r)
  | exec {s} {i r : Nat} : s.ph i = .posted r → Step cfg s (setPh s i (.begun (some r)))
  | drop {s} {i r : Nat} : s.ph i = .posted r → s.stopped r = true → Step cfg s (setPh s i .lost)
  /-- `Resume` finds the operation canceled (394-398) -/
  | skip {s} {i : Nat} {c} : s.ph i = .begun c → isCanceled s i = true → Step cfg s (setPh (fill s i .canceled) i .over)
  /-- `Resume` calls the callback -/
  | call {s} {i : Nat} {n c} : cfg[i]? = some n → s.ph i = .begun c → isCanceled s i = false →
      Step cfg s { setPh s i (.calling c) with calls := (i, c, n.kind.src.bind s.res) :: s.calls }
  /-- the callback ends -/
  | ret {s} {i : Nat} {n c} : cfg[i]? = some n → s.ph i = .calling c →
      (outcome n.kind (s.eptr i) (n.kind.src.bind s.res)).2 = false →
      Step cfg s (setPh s i (.got (outcome n.kind (s.eptr i) (n.kind.src.bind s.res)).1))
  /-- the callback gave a task; canceled meanwhile (692-696) or waiting for it (705-709) -/
  | retTask {s} {i : Nat} {n c} : cfg[i]? = some n → s.ph i = .calling c →
      (outcome n.kind (s.eptr i) (n.kind.src.bind s.res)).2 = true →
      Step cfg s (if isCanceled s i then setPh (fill s i .canceled) i .over else setPh s i (.inner (outcome n.kind (s.eptr i) (n.kind.src.bind s.res)).1))
  | store {s} {i : Nat} {r} : s.ph i = .got r → Step cfg s (setPh (store s i r) i .over)
  /-- the inner task is complete: `BridgeCompletedHandler::OnCompleted` (622-640) -/
  | bridge {s} {i : Nat} {r} : s.ph i = .inner r → Step cfg s (setPh (store s i (forward r)) i .over)
  | cancel {s} (i : Nat) : Step cfg s { fill s i .canceled with cancels := upd s.cancels i true }
  | token {s} (i : Nat) : Step cfg s { s with tok := upd s.tok i true }
  | stop {s} (r : Nat) : Step cfg s { s with stopped := upd s.stopped r true }
  | die {s} (r : Nat) : Step cfg s { s with dead := upd s.dead r true }

inductive Reach (cfg : List Node) : St → Prop
  | init : Reach cfg {}
  | step {s t} : Reach cfg s → Step cfg s t → Reach cfg t

inductive Steps (cfg : List Node) (s : St) : St → Prop
  | refl : Steps cfg s s
  | step {t u} : Steps cfg s t → Step cfg t u → Steps cfg s u

end Verif.Chain
