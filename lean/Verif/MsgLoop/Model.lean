/-!
The two loops of a Windows thread runner, with the message queue of the thread made explicit
(`src/YY/Base/Threading/ThreadTaskRunnerImpl.cpp`): `RunUIMessageLoop` 74-164 and `RunBackgroundLoop` 167-258.

Simplifications.
* Only the outermost loop (`uTaskRunnerReentryCount` 1); nested loops are in `Verif.ThreadRunner` (C47).
* A post (push, `Add` and `Wakeup`, 272-300) is one step; the interleavings inside it are in `Verif.ThreadRunner`. The count does not
  wrap (C47 has the wrap).
* The decisions between two shared accesses of the loop are one step: the pending count is a local of the runner, so a post between the
  test and the `Subtract` is a post before the step.
* What a task, a message handler or a wait callback does to the queues is an environment step after the step that starts it.
* `PeekMessageW` returns messages in the order of their posts and never −1 (it is a `BOOL`). `WM_QUIT` is a message of the queue.
-/
namespace Verif.MsgLoop

/-- A message: the wake-up message `WM_APP` of `Wakeup` (449-457), `WM_QUIT` with its `wParam`, or any other one. -/
inductive Msg where
  | app
  | quit (w : Nat)
  | user (n : Nat)
  deriving DecidableEq, Repr

/-- Why a loop returned: `ERROR_CANCELLED` (83, 107, 206, 241) or the `wParam` of `WM_QUIT` (95, 218). -/
inductive Res where
  | cancelled
  | quit (w : Nat)
  deriving DecidableEq, Repr

/-- Where the loop is: `peek` 79-100 (UI), `load` 102 / 172, `dec` 103-161 / 173-255, `sleep` 134 / 199, `mpeek` 202-222 (background) -/
inductive PC where
  | peek | load | dec | sleep | mpeek
  | done (r : Res)
  deriving DecidableEq, Repr

/-- State of the runner thread. `fresh` is the "new input" flag of the queue: `MsgWaitForMultipleObjectsEx` without `MWMO_INPUTAVAILABLE`
returns for input only when input arrived since the queue was last looked at. `posted`, `removed` and `ran` are history. -/
structure St where
  pc : PC
  /-- the message queue -/
  mq : List Msg := []
  fresh : Bool := false
  /-- `oTaskQueue` -/
  queue : List Nat := []
  /-- `uWakeupCount` -/
  cnt : Nat := 0
  /-- `uProcessedTaskCount` -/
  processed : Nat := 0
  /-- `uPendingTaskCount` -/
  pending : Nat := 0
  /-- `IsShared()` -/
  shared : Bool := true
  /-- `bInterrupt` -/
  intr : Bool := false
  /-- registered handles that are signalled -/
  sig : Nat := 0
  /-- all messages put in the queue so far -/
  posted : List Msg := []
  /-- all messages removed from it so far; all but `WM_QUIT` are dispatched (98-99, 220-221) -/
  removed : List Msg := []
  /-- all tasks started so far (155, 249) -/
  ran : List Nat := []
  /-- wait callbacks made so far -/
  waited : Nat := 0
  /-- calls of `ProcessingTimerTasks` so far (130, 179) -/
  timed : Nat := 0
  deriving DecidableEq, Repr

/-- How `MsgWaitForMultipleObjectsEx` returns: for input, for a handle, or for a timeout or an APC -/
inductive Wake where
  | input | handle | other
  deriving DecidableEq, Repr

/-- Assumptions about the surroundings. `looks`: user code run by the loop may look at the queue without emptying it
(`PeekMessage` with `PM_NOREMOVE`, `GetQueueStatus`). `checks`: a call of `MsgWaitForMultipleObjectsEx` that returns for something else
counts as a look at the queue, as its documentation says. -/
structure Env where
  looks : Bool := false
  checks : Bool := false

/-- A message arrives. -/
def St.arrive (s : St) (m : Msg) : St := { s with mq := s.mq ++ [m], fresh := true, posted := s.posted ++ [m] }

/-- `PostTaskInternal` 281-299: push, count, and a `WM_APP` if the new count is below 2 + `uTaskRunnerReentryCount` (294; here 3). -/
def St.post (s : St) (t : Nat) : St :=
  let s' := { s with queue := s.queue ++ [t], cnt := s.cnt + 1 }
  if s.cnt + 1 < 3 then s'.arrive .app else s'

/-- Remove the first message `m`, `WM_QUIT` ends the loop (UI 93-99, background 216-221). -/
def St.take (s : St) (m : Msg) (rest : List Msg) : St :=
  let s' := { s with mq := rest, removed := s.removed ++ [m] }
  match m with
  | .quit w => { s' with pc := .done (.quit w) }
  | _ => s'

/-- Pop a task and run it (UI 150-159, background 244-253); with an empty queue nothing is changed (the `assert` 151, 245). -/
def St.runTask (s : St) : St :=
  match s.queue with
  | [] => s
  | t :: q => { s with queue := q, ran := s.ran ++ [t], processed := s.processed + 1, pending := s.pending - 1 }

/-- The wait of 134 and 199 returns. A handle is served by `ProcessingWaitTasks` (145, 232). The lowest signalled index is reported and
input has the highest one. -/
def canWake (s : St) : Wake → Prop
  | .input => s.fresh = true ∧ s.sig = 0
  | .handle => 0 < s.sig
  | .other => True

/-- the new-input flag after the wait -/
def freshAfter (E : Env) (w : Wake) (s : St) : Bool := if E.checks = true ∧ w ≠ .input then false else s.fresh

/-- `ProcessingWaitTasks` after a wait that reported a handle: one callback -/
def St.serve (s : St) : Wake → St
  | .handle => { s with sig := s.sig - 1, waited := s.waited + 1 }
  | _ => s

/-- One step of `RunUIMessageLoop` (74-164); `w` is how the wait of 134 returns. `none`: the loop has returned. -/
def uiStep (E : Env) (w : Wake) (s : St) : Option St :=
  match s.pc with
  | .peek =>
    if s.shared = false then some { s with pc := .done .cancelled }
    else match s.mq with
      | [] => some { s with pc := .load, fresh := false }
      | m :: rest => some (s.take m rest)
  | .load => some { s with pc := .dec, pending := s.cnt - s.processed }
  | .dec =>
    if s.shared = false ∨ s.intr = true then some { s with pc := .done .cancelled }
    else if s.pending = 0 then
      if s.processed = 0 then some { s with pc := .sleep, timed := s.timed + 1 }
      else
        let n := s.cnt - s.processed
        let s' := { s with cnt := n, processed := 0, pending := n }
        if n = 0 then some { s' with pc := .sleep, timed := s.timed + 1 } else some { s' with pc := .peek }
    else some s.runTask
  | .sleep => some ({ s with pc := .peek, fresh := freshAfter E w s }.serve w)
  | .mpeek => none
  | .done _ => none

/-- One step of `RunBackgroundLoop` (167-258); `w` is how the wait of 199 returns. -/
def bgStep (E : Env) (w : Wake) (s : St) : Option St :=
  match s.pc with
  | .peek => none
  | .load => some { s with pc := .dec, pending := s.cnt - s.processed }
  | .dec =>
    if s.pending = 0 then
      if s.processed = 0 then some { s with pc := .sleep, timed := s.timed + 1 }
      else
        let n := s.cnt - s.processed
        let s' := { s with cnt := n, processed := 0, pending := n, timed := s.timed + 1 }
        if n = 0 then some { s' with pc := .sleep } else some s'
    else if s.shared = false ∨ s.intr = true then some { s with pc := .done .cancelled }
    else some s.runTask
  | .sleep =>
    match w with
    | .input => some { s with pc := .mpeek, fresh := freshAfter E w s }
    | _ => some ({ s with pc := .load, fresh := freshAfter E w s }.serve w)
  | .mpeek =>
    if s.shared = false ∨ s.intr = true then some { s with pc := .done .cancelled }
    else match s.mq with
      | [] => some { s with pc := .load, fresh := false }
      | m :: rest => some (s.take m rest)
  | .done _ => none

/-- One step of the loop chosen by `bBackgroundLoop` (`RunTaskRunnerLoop` 408-431). -/
def loopStep (bg : Bool) (E : Env) (w : Wake) (s : St) : Option St := if bg then bgStep E w s else uiStep E w s

/-- Who moves: the runner, a new task, a new message, a newly signalled handle, or anything else -/
inductive Lab where
  | runner (w : Wake) | task | msg | signal | rest
  deriving DecidableEq, Repr

/-- One step of the system -/
inductive Step (bg : Bool) (E : Env) : Lab → St → St → Prop
  | runner (s : St) (w : Wake) (s' : St) (hw : s.pc = .sleep → canWake s w) (h : loopStep bg E w s = some s') : Step bg E (.runner w) s s'
  /-- a message is posted, by any thread or by the code the loop runs -/
  | msg (s : St) (m : Msg) : Step bg E .msg s (s.arrive m)
  /-- a task is posted -/
  | task (s : St) (t : Nat) : Step bg E .task s (s.post t)
  /-- a registered handle becomes signalled -/
  | signal (s : St) : Step bg E .signal s { s with sig := s.sig + 1 }
  /-- `Interrupt` (57-61) -/
  | intr (s : St) : Step bg E .rest s { s with intr := true }
  /-- the last user reference goes away -/
  | unshare (s : St) : Step bg E .rest s { s with shared := false }
  /-- the code the loop runs looks at the queue -/
  | look (s : St) (h : E.looks = true) : Step bg E .rest s { s with fresh := false }

/-- The start of the loop: the queue of the thread was just created (386). -/
def start (bg : Bool) : St := { pc := if bg then .load else .peek }

/-- Reachable states -/
inductive Reach (bg : Bool) (E : Env) : St → Prop
  | start : Reach bg E (start bg)
  | step {l s s'} : Reach bg E s → Step bg E l s s' → Reach bg E s'

/-- steps of the runner -/
def Lab.isRunner : Lab → Nat
  | .runner _ => 1
  | _ => 0

/-- An execution from `s` to `s'` with `n` steps of the runner; `k` is the sum of the weights `d` of its steps. -/
inductive Run (bg : Bool) (E : Env) (d : PC → Lab → Nat) : St → Nat → Nat → St → Prop
  | nil (s) : Run bg E d s 0 0 s
  | cons {l s t u n k} : Step bg E l s t → Run bg E d t n k u → Run bg E d s (n + l.isRunner) (k + d s.pc l) u

/-- the loop has returned -/
def Finished (s : St) : Prop := ∃ r, s.pc = .done r

end Verif.MsgLoop
