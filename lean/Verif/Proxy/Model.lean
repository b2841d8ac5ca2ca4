import Verif.Common.Sum

/-!
# The proxy runner of a thread with a foreign message loop

Model of `ThreadTaskRunnerProxyImpl` (`src/YY/Base/Threading/ThreadTaskRunnerProxyImpl.h`): `PostTaskInternal` (147-174),
`Wakeup` (232-241), `ExecuteTaskRunner` (243-294), `TaskRunnerProc` (322-361), `Join` (108-129), `Interrupt` (131-135),
`CleanupTaskQueue` (217-230). Line numbers below are of this file.

The thread runs foreign code ("user code") that may take messages out of its queue; a message `kExecuteTaskRunnerMsg`
leads to `ExecuteTaskRunner`, which runs tasks; a task is user code again and may take messages too (a dialog), so calls
of `ExecuteTaskRunner` nest. One step = one access of `uWakeupCountAndPushLock`, one queue or message queue operation,
or the start/end of a task.

Simplifications: sequentially consistent memory; the task queue is a sequence with atomic `Push`/`Pop` (C32);
`PostMessageW` does not fail; fewer than 2^28 unfinished tasks, so the counter is a natural number; the runner is
referred to (`IsShared`) as long as the model runs; timers only run user code (C40-C43), which the state "user code"
covers; the model ends with the clean-up, after which nothing is claimed.
-/
namespace Verif.Proxy
open Verif.Common

/-- A thread inside `PostTaskInternal`. -/
inductive Post
  /-- 149 is next -/
  | check
  /-- 156 is next -/
  | spin
  /-- has the push lock, 158 is next -/
  | locked
  /-- the task is in the queue, 167 is next -/
  | pushed
  /-- 167: read `uTaskRunnerReentryCount` = `r` first, `Add` is next -/
  | first (r : Nat)
  /-- 167: `Add` done, the count is `v`; `uTaskRunnerReentryCount` is read next -/
  | second (v : Nat)
  /-- 171 is next -/
  | wake
  /-- returned `S_OK` -/
  | ok
  /-- refused (151) -/
  | refused
  deriving DecidableEq, Repr

/-- The runner's thread. -/
inductive Pc
  /-- user code: the foreign loop, or the body of the innermost running task -/
  | user
  /-- 245 is next -/
  | entry
  /-- 257 is next -/
  | wake
  /-- 266 is next -/
  | loop
  /-- 287 is next -/
  | sub
  /-- 293 is next -/
  | fin
  /-- 346 is next -/
  | tail
  deriving DecidableEq, Repr

structure St where
  /-- `oTaskQueue`; tasks are numbered in the order of `Push` -/
  queue : List Nat := []
  /-- ghost: number of tasks pushed so far -/
  nxt : Nat := 0
  /-- `bPushLock` -/
  lock : Bool := false
  /-- `bStopWakeup` -/
  stop : Bool := false
  /-- `bInterrupt` -/
  intr : Bool := false
  /-- `uWakeupCount` -/
  cnt : Nat := 0
  /-- `uTaskRunnerReentryCount` -/
  reent : Nat := 0
  /-- `uPendingTaskCount` -/
  pend : Nat := 0
  /-- `uProcessedTaskCount` -/
  proc : Nat := 0
  /-- number of `kExecuteTaskRunnerMsg` in the message queue -/
  msgs : Nat := 0
  pc : Pc := .user
  /-- ghost: tasks started, in this order -/
  started : List Nat := []
  /-- ghost: tasks finished -/
  finished : List Nat := []
  /-- ghost: tasks being executed, innermost first -/
  run : List Nat := []
  /-- ghost: the assertion at 272 failed -/
  assertFailed : Bool := false
  /-- the clean-up has been done -/
  cleaned : Bool := false
  posts : List Post := []
  deriving DecidableEq, Repr

/-- 167: `WakeupOnceRaw * cnt + flags < WakeupOnceRaw * (2 + reentry)`; the flags are less than `WakeupOnceRaw`. -/
def needWake (v r : Nat) : Bool := v < 2 + r

/-- One atomic step. `nest`: may user code inside a task take messages? -/
inductive Step (nest : Bool) : St → St → Prop
  /-- somebody calls `PostTask` -/
  | call (s) : s.cleaned = false → Step nest s { s with posts := s.posts ++ [.check] }
  /-- 149-152 -/
  | refuse (s) (i : Nat) : s.cleaned = false → s.posts[i]? = some .check → s.stop = true →
      Step nest s { s with posts := s.posts.set i .refused }
  | pass (s) (i : Nat) : s.cleaned = false → s.posts[i]? = some .check → s.stop = false →
      Step nest s { s with posts := s.posts.set i .spin }
  /-- 156 -/
  | lock (s) (i : Nat) : s.cleaned = false → s.posts[i]? = some .spin → s.lock = false →
      Step nest s { s with lock := true, posts := s.posts.set i .locked }
  /-- 158 -/
  | push (s) (i : Nat) : s.cleaned = false → s.posts[i]? = some .locked →
      Step nest s { s with queue := s.queue ++ [s.nxt], nxt := s.nxt + 1, posts := s.posts.set i .pushed }
  /-- 167, the right operand first -/
  | read1 (s) (i : Nat) : s.cleaned = false → s.posts[i]? = some .pushed →
      Step nest s { s with posts := s.posts.set i (.first s.reent) }
  | add1 (s) (i r : Nat) : s.cleaned = false → s.posts[i]? = some (.first r) →
      Step nest s { s with lock := false, cnt := s.cnt + 1,
                           posts := s.posts.set i (if needWake (s.cnt + 1) r then .wake else .ok) }
  /-- 167, the left operand first -/
  | add2 (s) (i : Nat) : s.cleaned = false → s.posts[i]? = some .pushed →
      Step nest s { s with lock := false, cnt := s.cnt + 1, posts := s.posts.set i (.second (s.cnt + 1)) }
  | read2 (s) (i v : Nat) : s.cleaned = false → s.posts[i]? = some (.second v) →
      Step nest s { s with posts := s.posts.set i (if needWake v s.reent then .wake else .ok) }
  /-- 171 -/
  | wake (s) (i : Nat) : s.cleaned = false → s.posts[i]? = some .wake →
      Step nest s { s with msgs := if s.stop then s.msgs else s.msgs + 1, posts := s.posts.set i .ok }
  /-- `Join` (115) -/
  | join (s) : s.cleaned = false → Step nest s { s with stop := true }
  /-- `Interrupt` (133) -/
  | interrupt (s) : s.cleaned = false → Step nest s { s with stop := true, intr := true }
  /-- user code dispatches a message -/
  | deliver (s) : s.cleaned = false → s.pc = .user → s.msgs ≠ 0 → (nest = false → s.reent = 0) →
      Step nest s { s with msgs := s.msgs - 1, pc := .entry }
  /-- 245-252: nothing to do -/
  | none (s) : s.cleaned = false → s.pc = .entry → s.pend = s.reent →
      s.pend + (s.cnt - s.proc - s.reent) = s.reent →
      Step nest s { s with pc := .tail }
  /-- 245-254: new tasks -/
  | some (s) : s.cleaned = false → s.pc = .entry → s.pend = s.reent →
      s.pend + (s.cnt - s.proc - s.reent) ≠ s.reent →
      Step nest s { s with pend := s.pend + (s.cnt - s.proc - s.reent), reent := s.reent + 1, pc := .wake }
  /-- 245, 254: tasks left over from the outer call -/
  | more (s) : s.cleaned = false → s.pc = .entry → s.pend ≠ s.reent →
      Step nest s { s with reent := s.reent + 1, pc := .wake }
  /-- 257 -/
  | again (s) : s.cleaned = false → s.pc = .wake →
      Step nest s { s with msgs := if s.stop then s.msgs else s.msgs + 1, pc := .loop }
  /-- 266-269 -/
  | intr (s) : s.cleaned = false → s.pc = .loop → s.intr = true → Step nest s { s with pc := .sub }
  /-- 271-276 -/
  | pop (s) (t : Nat) (q : List Nat) : s.cleaned = false → s.pc = .loop → s.intr = false → s.queue = t :: q →
      Step nest s { s with queue := q, started := s.started ++ [t], run := t :: s.run, pc := .user }
  /-- 271-272, 281-284 -/
  | empty (s) : s.cleaned = false → s.pc = .loop → s.intr = false → s.queue = [] →
      Step nest s { s with assertFailed := true, pc := .sub }
  /-- 277-285: the innermost task ends -/
  | finish (s) (t : Nat) (r : List Nat) : s.cleaned = false → s.pc = .user → s.run = t :: r →
      Step nest s { s with run := r, finished := s.finished ++ [t], proc := s.proc + 1, pend := s.pend - 1,
                           pc := if s.pend - 1 = s.reent - 1 then .sub else .loop }
  /-- 287-291 -/
  | sub (s) : s.cleaned = false → s.pc = .sub →
      Step nest s { s with cnt := s.cnt - s.proc, proc := 0, pc := .fin }
  /-- 293 -/
  | fin (s) : s.cleaned = false → s.pc = .fin → Step nest s { s with reent := s.reent - 1, pc := .tail }
  /-- 346-351: clean-up -/
  | clean (s) : s.cleaned = false → s.pc = .tail → (s.intr = true ∨ (s.stop = true ∧ s.cnt = 0)) →
      Step nest s { s with queue := [], cleaned := true, pc := .user }
  /-- 346-349: nothing -/
  | back (s) : s.cleaned = false → s.pc = .tail → ¬ (s.intr = true ∨ (s.stop = true ∧ s.cnt = 0)) →
      Step nest s { s with pc := .user }

inductive Reach (nest : Bool) : St → Prop
  | init : Reach nest {}
  | step {s s'} : Reach nest s → Step nest s s' → Reach nest s'

inductive Steps (nest : Bool) : St → St → Prop
  | refl (s) : Steps nest s s
  | tail {s t u} : Steps nest s t → Step nest t u → Steps nest s u

end Verif.Proxy
