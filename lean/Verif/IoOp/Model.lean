/-!
# Asynchronous file operations

Model of `AsyncFile::ReadAsync` (`src/YY/Base/IO/File.cpp` 56-109), `WriteAsync` (111-164) and
`AsyncPipe::ConnectAsync` (166-258), which have the same structure, of the completion callback
(`src/YY/Base/Threading/TaskRunnerDispatchImpl.cpp` 36-47), of `IoAsyncOperation::Resolve` (`Async.h` 562-578)
and of the handles `AsyncFile`/`AsyncPipe` (`include/YY/Base/IO/File.h` 42-144, 265-331). Line numbers below
without a file name are those of `ReadAsync` in `File.cpp`.

System calls (trusted, from their documentation), for a handle bound to the thread pool:
* an overlapped request succeeds at once, or fails with `ERROR_IO_PENDING` and completes later, or fails;
* a pending request always queues one completion packet, an immediate success queues one unless the handle is
  in the mode `FILE_SKIP_COMPLETION_PORT_ON_SUCCESS`, a failed request queues none. The last point does not
  hold for warnings (`ERROR_MORE_DATA` of a message pipe); `Env.warn` admits that.
* the buffer is written only until the request is completed;
* each packet makes the pool call the callback once.

Simplifications: sequentially consistent memory; one operation; what `Cancel` and `NotifyCompletedHandlers` do
beyond the status is in the models of C49/C50 (the caller of either holds a reference all the time); the
callback works on the object as an `IoAsyncOperation<void>`, which relies on equal layouts.
-/
namespace Verif.IoOp

/-- What is fixed during an operation. -/
structure Env where
  /-- the handle is in the mode `FILE_SKIP_COMPLETION_PORT_ON_SUCCESS` -/
  osSkip : Bool
  /-- `AsyncFile::bSkipCompletionNotificationOnSuccess` of the object used -/
  flag : Bool
  /-- failures at once may queue a packet -/
  warn : Bool := false
  deriving DecidableEq, Repr

/-- `AsyncStatus` (Async.h 21-31) -/
inductive Status | started | completed | canceled
  deriving DecidableEq, Repr

/-- Place inside `IoAsyncOperation::Resolve` (Async.h 562-578). -/
inductive R
  /-- 564 is next -/
  | chk
  /-- 566: cancellation seen, `Cancel` is next -/
  | cancel
  /-- 570 is next -/
  | cas
  /-- 575 is next -/
  | store
  /-- returned -/
  | fin
  deriving DecidableEq, Repr

/-- How the system call returned. -/
inductive Out
  | sync
  | pending
  | fail (e : Nat)
  deriving DecidableEq, Repr

/-- The thread inside `ReadAsync`. -/
inductive Ini
  /-- object created (58), 62 or 68 is next -/
  | start
  /-- inside `Resolve` (71, 103) -/
  | res (o : Out) (r : R)
  /-- `Resolve` is over; 73-80 or 104 is next -/
  | after (o : Out)
  /-- pending: 87-98 -/
  | arm
  /-- 108 is next -/
  | ret
  /-- returned: its reference is the caller's `Task` -/
  | done
  deriving DecidableEq, Repr

/-- The request, as the system sees it. -/
inductive Kern
  /-- none yet -/
  | none
  /-- in progress: the buffer belongs to the system -/
  | pending
  /-- completed, packet queued -/
  | packet
  /-- completed, no packet (any more) -/
  | over
  deriving DecidableEq, Repr

structure St where
  ini : Ini := .start
  kern : Kern := .none
  /-- the completion callback, while it runs -/
  cb : Option R := none
  /-- number of `Task`s and other `RefPtr`s of users -/
  users : Nat := 0
  /-- `RefValue::uRef` -/
  ref : Nat := 1
  status : Status := .started
  /-- the cancellation token is set -/
  tok : Bool := false
  /-- `lStatus`; `none`: still `ERROR_IO_PENDING` -/
  lst : Option Nat := none
  /-- final status and number of bytes (`InternalHigh`) of the request, once completed -/
  res : Option (Nat × Nat) := none
  /-- ghost: the object was used after its counter had reached zero -/
  bad : Bool := false
  deriving DecidableEq, Repr

/-- Access to the object. -/
def acc (s : St) : Bool := s.bad || s.ref = 0

/-- `AsyncInfo::IsCanceled` (Async.h 119-127) -/
def isCanceled (s : St) : Bool :=
  if s.status = .completed then false else (s.status = .canceled || s.tok)

/-- `AsyncInfo::Cancel` (Async.h 108-117), the change of the status. -/
def cancelSt (s : St) : Status := if s.status = .started then .canceled else s.status

/-- One step inside `Resolve(e)`: the place after it, the status and `lStatus` after it (Async.h 564-577). -/
def rstep (s : St) (e : Nat) : R → R × Status × Option Nat
  | .chk => (if isCanceled s then .cancel else .cas, s.status, s.lst)
  | .cancel => (.fin, cancelSt s, s.lst)
  | .cas => if s.status = .started then (.store, .completed, s.lst) else (.fin, s.status, s.lst)
  | .store => (.fin, s.status, some e)
  | .fin => (.fin, s.status, s.lst)

/-- The status code passed to `Resolve` by the initiating thread (71, 103). -/
def outCode : Out → Nat
  | .sync => 0
  | .pending => 0
  | .fail e => e

/-- Does 73-80 or 104 release the reference made for the system? -/
def releases (v : Env) : Out → Bool
  | .sync => v.flag
  | .pending => false
  | .fail _ => true

inductive Step (v : Env) : St → St → Prop
  /-- the token is set by somebody -/
  | token (s) : Step v s { s with tok := true }
  /-- 62-66: cancelled before the start -/
  | early (s) : s.ini = .start → s.tok = true →
      Step v s { s with ini := .ret, status := cancelSt s, bad := acc s }
  /-- 68: `Clone`, the request succeeds at once with `n` bytes -/
  | sync (s) (n : Nat) : s.ini = .start →
      Step v s { s with ini := .res .sync .chk, ref := s.ref + 1, res := some (0, n), bad := acc s,
                        kern := if v.osSkip then .over else .packet }
  /-- 68: `Clone`, the request is pending -/
  | pend (s) : s.ini = .start →
      Step v s { s with ini := .arm, ref := s.ref + 1, kern := .pending, bad := acc s }
  /-- 68: `Clone`, the request fails -/
  | fail (s) (e : Nat) : s.ini = .start → e ≠ 0 →
      Step v s { s with ini := .res (.fail e) .chk, ref := s.ref + 1, res := some (e, 0), kern := .over, bad := acc s }
  /-- 68: the request "fails" with a warning, after transferring `n` bytes -/
  | warn (s) (e n : Nat) : v.warn = true → s.ini = .start → e ≠ 0 →
      Step v s { s with ini := .res (.fail e) .chk, ref := s.ref + 1, res := some (e, n), kern := .packet, bad := acc s }
  /-- a step of `Resolve` in the initiating thread -/
  | iniRes (s) (o : Out) (r : R) : s.ini = .res o r → r ≠ .fin →
      Step v s { s with ini := .res o (rstep s (outCode o) r).1, status := (rstep s (outCode o) r).2.1,
                        lst := (rstep s (outCode o) r).2.2, bad := acc s }
  /-- `Resolve` returns -/
  | iniFin (s) (o : Out) : s.ini = .res o .fin → Step v s { s with ini := .after o }
  /-- 73-80, 104: release the system's reference -/
  | iniRel (s) (o : Out) : s.ini = .after o → releases v o = true →
      Step v s { s with ini := .ret, ref := s.ref - 1, bad := acc s }
  /-- 73-80: leave it to the packet -/
  | iniKeep (s) (o : Out) : s.ini = .after o → releases v o = false → Step v s { s with ini := .ret }
  /-- 87-98: cancellation seen -/
  | armCancel (s) : s.ini = .arm → isCanceled s = true →
      Step v s { s with ini := .ret, status := cancelSt s, bad := acc s }
  /-- 87-98: no cancellation -/
  | armGo (s) : s.ini = .arm → isCanceled s = false → Step v s { s with ini := .ret, bad := acc s }
  /-- 108: the reference goes into the `Task` returned -/
  | ret (s) : s.ini = .ret → Step v s { s with ini := .done, users := s.users + 1 }
  /-- the system completes the request with status `e` and `n` bytes -/
  | complete (s) (e n : Nat) : s.kern = .pending →
      Step v s { s with kern := .packet, res := some (e, n), bad := acc s }
  /-- a packet is delivered: the callback starts (TaskRunnerDispatchImpl.cpp 40) and owns the reference -/
  | deliver (s) : s.kern = .packet → Step v s { s with kern := .over, cb := some .chk }
  /-- a step of `Resolve` in the callback (45) -/
  | cbRes (s) (r : R) (e n : Nat) : s.cb = some r → r ≠ .fin → s.res = some (e, n) →
      Step v s { s with cb := some (rstep s e r).1, status := (rstep s e r).2.1, lst := (rstep s e r).2.2,
                        bad := acc s }
  /-- the callback ends: destructor of `_pIoAsyncOperation` (46) -/
  | cbEnd (s) : s.cb = some .fin → Step v s { s with cb := none, ref := s.ref - 1, bad := acc s }
  /-- a user copies a `Task` -/
  | dup (s) : 1 ≤ s.users → Step v s { s with users := s.users + 1, ref := s.ref + 1, bad := acc s }
  /-- a user gives a `Task` up -/
  | drop (s) : 1 ≤ s.users → Step v s { s with users := s.users - 1, ref := s.ref - 1, bad := acc s }
  /-- `FileIoAsyncOperation::Cancel` (49-53) by a user -/
  | cancel (s) : 1 ≤ s.users → Step v s { s with status := cancelSt s, bad := acc s }

inductive Reach (v : Env) : St → Prop
  | init : Reach v {}
  | step {s s'} : Reach v s → Step v s s' → Reach v s'

/-! ## Handles -/

/-- An `AsyncFile` object (`File.h` 45-46). -/
structure File where
  h : Option Nat := none
  flag : Bool := false
  deriving DecidableEq, Repr

/-- `AsyncFile(HANDLE)` (`File.h` 48-55); `ok`: what `SetFileCompletionNotificationModes` returns. -/
def mkFile (h : Option Nat) (ok : Bool) : File := ⟨h, match h with | some _ => ok | none => false⟩

/-- `AsyncFile(AsyncFile&&)` (`File.h` 60-64): new object and source afterwards. -/
def moveNew (o : File) : File × File := (⟨o.h, false⟩, { o with h := none })

/-- `operator=(AsyncFile&&)` (`File.h` 74-85): target and source afterwards and the handle closed. `CloseHandle`
is taken to succeed. -/
def moveAssign (t o : File) : File × File × Option Nat :=
  if t.h ≠ o.h then (⟨o.h, o.flag⟩, { o with h := none }, t.h) else (t, o, none)

/-- `AsyncPipe::Open` (`File.h` 327-331): `AsyncFile::Open`, then the move constructor. -/
def pipeOpen (h : Option Nat) (ok : Bool) : File := (moveNew (mkFile h ok)).1

/-- `AsyncPipe::ConnectAsync` (217-254): status reported for what `ConnectNamedPipe` returned (`e`: the last
error of a failure). -/
def connectStatus : Out → Option Nat
  | .sync => some 0
  | .pending => none
  | .fail e => some e

/-- `FileIoAsyncOperation::GetResult` (37-47) of a completed operation: number of bytes, and the last error it
sets (`none`: untouched). -/
def getResult (n l : Nat) : Nat × Option Nat := (n, if n = 0 then some l else none)

end Verif.IoOp
