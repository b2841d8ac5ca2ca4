/-!
# Model of callbacks that throw

`TaskEntry::RunTask`, `Timer::RunTask` (src/YY/Base/Threading/TaskRunner.cpp 80-140) and the message loop of a thread runner around them (ThreadTaskRunnerImpl.cpp 72-160, 272-302, 409-431).

A callback ends normally, with `OperationCanceledException`, or with another exception. `RunTask` catches the second only. On the way out of a `noexcept` function (`ProcessingTimerTasks`,
ThreadTaskRunnerTimerManger.h 111; `ProcessingWaitTasks`, ThreadTaskRunnerWaitManger.h 138) and out of a callback of the thread pool (ThreadPool.Windows.h 18-56: nothing catches) the process is ended;
out of a task of a runner made by `BindCurrentThread` the exception reaches the caller of `RunUIMessageLoop`, who may catch it and run the loop again.

One runner, its thread, and any number of threads that post, cancel, stop and join. One step = one access of the shared word, of the queue or of the message queue, or the end of a callback.
Simplifications: a post is one step (its races are C47, C48, C65); no nested loop (C47), no `Interrupt`, the owner keeps the runner (C48); a wake-up message is not lost; counters do not reach 2^28; a task is cancelled after it was posted (for
timers cancelled earlier see C87);
exceptions of message handlers are left out (the system does not let them pass reliably); at most the timers' callbacks are called in `ProcessingTimerTasks`.
-/
namespace Verif.Throw

/-- how a callback ends -/
inductive Out where
  | ret | cancel | other
deriving DecidableEq

/-- `hr` after the task: `S_OK`, `ERROR_CANCELLED` -/
inductive Res where
  | ok | cancelled
deriving DecidableEq

/-- what `RunTask` leaves: the callback was called, the argument of `Wakeup`, an exception that goes on -/
structure Ran where
  called : Bool
  wake : Option Res
  exc : Bool
deriving DecidableEq

/-- `TaskEntry::RunTask` (80-100) of a task whose callback ends with `o` -/
def runTask (canceled : Bool) (o : Out) : Ran :=
  if canceled then ⟨false, none, false⟩
  else
    match o with
    | .ret => ⟨true, some .ok, false⟩
    | .cancel => ⟨true, some .cancelled, false⟩
    | .other => ⟨true, none, true⟩

/-- `Wakeup` (TaskRunner.cpp 42-48): the first result stays -/
def wakeup (cur new : Option Res) : Option Res :=
  match cur with
  | some r => some r
  | none => new

/-- position of the runner's thread -/
inductive PC where
  /-- outside the loop -/
  | out
  /-- `PeekMessageW` (86) -/
  | peek
  /-- `uPendingTaskCount = …` (102) -/
  | load
  /-- 111 -/
  | chk
  /-- a task's `operator()` (150) -/
  | run (t : Nat)
  /-- 113-127 -/
  | sub
  /-- `ProcessingTimerTasks` (130) -/
  | timers
  /-- `MsgWaitForMultipleObjectsEx` (134) -/
  | sleep
deriving DecidableEq

structure St where
  q : List Nat := []
  /-- `uWakeupCount`, `uProcessedTaskCount`, `uPendingTaskCount`, `uTaskRunnerReentryCount` -/
  cnt : Nat := 0
  processed : Nat := 0
  pend : Nat := 0
  reentry : Nat := 0
  pc : PC := .out
  /-- wake-up messages -/
  msgs : Nat := 0
  /-- `bStopWakeup`; the word has been set to `TerminateTaskRunnerRaw` (444) -/
  stop : Bool := false
  ended : Bool := false
  canceled : Nat → Bool := fun _ => false
  /-- `hr` of each task, `none` for `E_PENDING` -/
  hr : Nat → Option Res := fun _ => none
  /-- the queue's reference of the task was released -/
  freed : Nat → Bool := fun _ => false
  /-- observations: tasks posted, tasks taken, tasks whose exception left the loop; the process was ended -/
  posted : List Nat := []
  taken : List Nat := []
  thrown : List Nat := []
  dead : Bool := false
  /-- observations: tasks refused; a callback of a timer threw -/
  rejected : List Nat := []
  timerExc : Bool := false

def upd {α : Type} (f : Nat → α) (i : Nat) (x : α) : Nat → α := fun j => if j = i then x else f j

/-- Steps of a runner on a thread of the pool (`pool = true`) or bound to a thread of the user; `o t` is the way task `t` ends. -/
inductive Step (pool : Bool) (o : Nat → Out) : St → St → Prop
  /-- `PostTaskInternal` (272-302): `E_PENDING`, push, count, wake up if the thread may sleep (294-299) -/
  | post (s : St) (t : Nat) : s.dead = false → s.stop = false → t ∉ s.posted →
      Step pool o s { s with hr := upd s.hr t none, q := s.q ++ [t], posted := s.posted ++ [t], cnt := s.cnt + 1, msgs := s.msgs + (if s.cnt + 1 < 2 + s.reentry then 1 else 0) }
  /-- refused (275-279) -/
  | refused (s : St) (t : Nat) : s.dead = false → s.stop = true → t ∉ s.posted → Step pool o s { s with hr := upd s.hr t (some .cancelled), rejected := t :: s.rejected }
  /-- `Cancel` (TaskRunner.cpp 70-78) -/
  | cancel (s : St) (t : Nat) : s.dead = false → t ∈ s.posted → s.canceled t = false →
      Step pool o s { s with canceled := upd s.canceled t true, hr := upd s.hr t (wakeup (s.hr t) (some .cancelled)) }
  /-- `Join` (41): `StopWakeup` -/
  | join (s : St) : s.dead = false → Step pool o s { s with stop := true }
  /-- `RunTaskRunnerLoop` (411) -/
  | enter (s : St) : s.dead = false → s.pc = .out → Step pool o s { s with reentry := s.reentry + 1, pc := .peek }
  /-- a message -/
  | message (s : St) : s.dead = false → s.pc = .peek → 0 < s.msgs → Step pool o s { s with msgs := s.msgs - 1 }
  /-- `WM_QUIT` (92-95), `--uTaskRunnerReentryCount` and the clean-up (423-429) -/
  | quit (s : St) : s.dead = false → s.pc = .peek →
      Step pool o s { s with reentry := s.reentry - 1, pc := .out, ended := if s.stop && decide (s.cnt = 0) then true else s.ended }
  /-- no message (89-90) -/
  | noMessage (s : St) : s.dead = false → s.pc = .peek → s.msgs = 0 → Step pool o s { s with pc := .load }
  | load (s : St) : s.dead = false → s.pc = .load → Step pool o s { s with pend := s.cnt - s.processed, pc := .chk }
  /-- 111, not equal: `Pop` (145) -/
  | pop (s : St) (t : Nat) (q : List Nat) : s.dead = false → s.pc = .chk → s.pend ≠ s.reentry - 1 → s.q = t :: q →
      Step pool o s { s with q := q, taken := s.taken ++ [t], pc := .run t }
  /-- 111, equal -/
  | idle (s : St) : s.dead = false → s.pc = .chk → s.pend = s.reentry - 1 → Step pool o s { s with pc := .sub }
  /-- the task is over (150-153) -/
  | done (s : St) (t : Nat) : s.dead = false → s.pc = .run t → (runTask (s.canceled t) (o t)).exc = false →
      Step pool o s { s with hr := upd s.hr t (wakeup (s.hr t) (runTask (s.canceled t) (o t)).wake), freed := upd s.freed t true,
                             processed := s.processed + 1, pend := s.pend - 1, pc := .chk }
  /-- its exception leaves the loop: out of the pool's callback, or to the caller of `RunUIMessageLoop` -/
  | throw (s : St) (t : Nat) : s.dead = false → s.pc = .run t → (runTask (s.canceled t) (o t)).exc = true →
      Step pool o s (if pool then { s with dead := true } else { s with thrown := s.thrown ++ [t], pc := .out })
  /-- 113-127 -/
  | subNone (s : St) : s.dead = false → s.pc = .sub → s.processed = 0 → Step pool o s { s with pc := .timers }
  | sub (s : St) : s.dead = false → s.pc = .sub → s.processed ≠ 0 →
      Step pool o s { s with cnt := s.cnt - s.processed, processed := 0, pend := s.cnt - s.processed,
                             pc := if s.cnt - s.processed ≠ 0 ∧ s.reentry ≤ s.cnt - s.processed then .peek else .timers }
  /-- a timer's callback (130), not cancelled, ends with `x`; `ProcessingTimerTasks` is `noexcept` -/
  | timer (s : St) (x : Out) : s.dead = false → s.pc = .timers → Step pool o s { s with dead := (runTask false x).exc, timerExc := s.timerExc || decide (x = .other) }
  | timersEnd (s : St) : s.dead = false → s.pc = .timers → Step pool o s { s with pc := .sleep }
  /-- the wait ends: a message, a timer, a handle (139-142) -/
  | wake (s : St) : s.dead = false → s.pc = .sleep → Step pool o s { s with pc := .peek }

inductive Reach (pool : Bool) (o : Nat → Out) : St → Prop
  | start : Reach pool o {}
  | step {s s' : St} : Reach pool o s → Step pool o s s' → Reach pool o s'

inductive Steps (pool : Bool) (o : Nat → Out) : St → St → Prop
  | refl (s : St) : Steps pool o s s
  | step {s s' s'' : St} : Steps pool o s s' → Step pool o s' s'' → Steps pool o s s''

end Verif.Throw
