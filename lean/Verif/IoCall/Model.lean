/-!
# Asynchronous file operations with a callback

Model of `AsyncFile::AsyncRead` (`include/YY/Base/IO/File.h` 191-218) and `AsyncWrite` (234-262), which differ in the system call only, and of `AsyncPipe::AsyncConnect` (350-372), on top of what
`ReadAsync` (`src/YY/Base/IO/File.cpp` 56-109), `FileIoAsyncOperation::GetResult` (37-47), `ConnectAsyncOperation::GetResult` (198-202), `IoAsyncOperation::Resolve` (`Async.h` 562-578),
`AsyncOperation::AddCompletedHandler` (282-297), `NotifyCompletedHandlers` (309-325), `Task::Then` (`Task.h` 119-138) and
`TaskContinueAsyncOperation::OnCompleted` (485-512) do.  Line numbers without a file name are those of `File.h`.

Nobody else knows the operation: no token is given (198), the `Task` and the one returned by `Then` (211) are local.  So there is no step of cancellation; the
completed operation itself is in C68.

Simplifications: sequentially consistent memory; one call; the callback neither throws nor changes the state; a failure at once queues no packet (warnings,
`ERROR_MORE_DATA`, are in C68); the thread that delivers the packet belongs to no task runner; while the caller is inside it, the runner is alive.
-/
namespace Verif.IoCall

/-- `AsyncStatus` (Async.h 21-31) -/
inductive Status | started | completed | canceled | error
deriving DecidableEq

/-- `ERROR_IO_PENDING`, the initial `lStatus` (Async.h 554) -/
def ioPending : Nat := 997
/-- `ERROR_CANCELLED` -/
def cancelled : Nat := 1223

structure Env where
  /-- `AsyncConnect` instead of `AsyncRead` or `AsyncWrite` -/
  conn : Bool := false
  /-- the caller is on a task runner (`TaskRunner::GetCurrent()` is not null, Task.h 137) -/
  home : Bool
  /-- `WaitOnAddress` may return before the value has changed -/
  early : Bool := false

/-- how far the winning `Resolve` is -/
inductive Stage
  | started
  /-- the status is `Completed` (Async.h 570) -/
  | claimed
  /-- `lStatus` is written (575) -/
  | stored
  /-- `hr` is written (311) -/
  | published
  /-- the handlers have been taken (313-317) and called -/
  | notified
deriving DecidableEq

/-- the caller -/
inductive Pc
  /-- 198 is next -/
  | issue
  /-- 199 is next -/
  | status
  /-- 204: waiting in `GetResult` -/
  | direct
  /-- 209: `AddCompletedHandler` is next (Task.h 127) -/
  | add
  /-- 209: not added, `OnCompleted` (Task.h 129) waiting in `GetResult` -/
  | cont
  /-- returned a code -/
  | ret (l : Nat)
deriving DecidableEq

/-- the continuation -/
inductive Handler
  | none
  | registered
  /-- queued at the caller's runner (Task.h 507-511) -/
  | posted
  /-- refused by the runner, or dropped with its queue -/
  | lost
  | over
deriving DecidableEq

inductive Place | caller | pool | runner
deriving DecidableEq

/-- a call of `_pfnResultCallback` -/
structure Call where
  code : Nat
  bytes : Nat
  place : Place
deriving DecidableEq

structure St where
  pc : Pc := .issue
  stage : Stage := .started
  handler : Handler := .none
  /-- final status and number of bytes (`InternalHigh`) of the request, once it is complete -/
  res : Option (Nat × Nat) := none
  lst : Nat := ioPending
  stopped : Bool := false
  dead : Bool := false
  calls : List Call := []
deriving DecidableEq

/-- `GetStatus` -/
def Stage.status : Stage → Status
  | .started => .started
  | _ => .completed

/-- the `switch` (199-218): return at once with a code, or go on; `h` is `HRESULT_CODE(GetErrorCode())` (207) -/
def branch (h : Nat) : Status → Pc
  | .canceled => .ret cancelled
  | .completed => .direct
  | .error => .ret h
  | .started => .add

/-- does the wait in `GetResult` (Async.h 163-173) end? -/
def ready (v : Env) (s : St) : Bool := s.stage = .published || s.stage = .notified || v.early

/-- the code passed to the callback in the case `Completed`: `ERROR_SUCCESS` (204, 248), or the result, which is `lStatus` (359) -/
def directCode (v : Env) (s : St) : Nat := if v.conn then s.lst else 0

/-- the code the lambda (209-213, 253-257) passes on: `GetResult` (File.cpp 41-44) has stored `lStatus` as last error of this thread if there are no bytes; 364-367: the result -/
def lambdaCode (v : Env) (s : St) (n : Nat) : Nat := if v.conn then s.lst else if n = 0 then s.lst else 0

/-- `OnCompleted` (Task.h 485-512) for a registered continuation, on a thread of the pool -/
def onCompleted (v : Env) (s : St) (n : Nat) : St :=
  if v.home = false ∨ s.dead = true then { s with handler := .over, calls := s.calls ++ [⟨lambdaCode v s n, n, .pool⟩] }
  else if s.stopped then { s with handler := .lost }
  else { s with handler := .posted }

inductive Step (v : Env) : St → St → Prop
  /-- 198: the request ends at once with `(e, n)` – in case of an error without bytes –, the caller itself carries out `Resolve` -/
  | atOnce {s} (e n : Nat) : s.pc = .issue → (e ≠ 0 → n = 0) → Step v s { s with pc := .status, res := some (e, n), stage := .notified, lst := e }
  /-- 198: the request succeeds at once, but the packet is faster: `Resolve` of the caller finds the status changed -/
  | raced {s} (n : Nat) : s.pc = .issue → Step v s { s with pc := .status, res := some (0, n), stage := .claimed }
  /-- 198: the request is pending -/
  | pending {s} : s.pc = .issue → Step v s { s with pc := .status }
  /-- the system completes the request -/
  | complete {s} (e n : Nat) : s.pc ≠ .issue → s.res = none → Step v s { s with res := some (e, n) }
  | claim {s r} : s.res = some r → s.stage = .started → Step v s { s with stage := .claimed }
  | store {s e n} : s.res = some (e, n) → s.stage = .claimed → Step v s { s with stage := .stored, lst := e }
  | publish {s} : s.stage = .stored → Step v s { s with stage := .published }
  /-- no handler registered -/
  | notifyNone {s} : s.stage = .published → s.handler ≠ .registered → Step v s { s with stage := .notified }
  | notify {s e n} : s.stage = .published → s.handler = .registered → s.res = some (e, n) → Step v s (onCompleted v { s with stage := .notified } n)
  /-- 199 -/
  | switch {s} (h : Nat) : s.pc = .status → Step v s { s with pc := branch h s.stage.status }
  /-- 204-205 -/
  | direct {s e n} : s.pc = .direct → ready v s = true → s.res = some (e, n) → Step v s { s with pc := .ret 0, calls := s.calls ++ [⟨directCode v s, n, .caller⟩] }
  /-- Task.h 127: added -/
  | add {s} : s.pc = .add → s.stage = .started → Step v s { s with pc := .ret 0, handler := .registered }
  /-- Task.h 127: complete meanwhile -/
  | addNo {s} : s.pc = .add → s.stage ≠ .started → Step v s { s with pc := .cont }
  /-- Task.h 129, 495-498: the caller is on the runner to resume on -/
  | cont {s e n} : s.pc = .cont → ready v s = true → s.res = some (e, n) →
      Step v s { s with pc := .ret 0, calls := s.calls ++ [⟨lambdaCode v s n, n, .caller⟩] }
  /-- the runner executes the closure (Task.h 510) -/
  | exec {s e n} : s.handler = .posted → s.dead = false → s.res = some (e, n) →
      Step v s { s with handler := .over, calls := s.calls ++ [⟨lambdaCode v s n, n, .runner⟩] }
  | drop {s} : s.handler = .posted → s.stopped = true → Step v s { s with handler := .lost }
  | stop {s} : Step v s { s with stopped := true }
  /-- the last reference to the runner goes; its destructor stops it and drops what is queued -/
  | die {s l} : s.pc = .ret l → Step v s { s with dead := true, stopped := true }

inductive Steps (v : Env) (s : St) : St → Prop
  | refl : Steps v s s
  | step {t u} : Steps v s t → Step v t u → Steps v s u

/-- from the call on -/
abbrev Reach (v : Env) (s : St) : Prop := Steps v {} s

end Verif.IoCall
