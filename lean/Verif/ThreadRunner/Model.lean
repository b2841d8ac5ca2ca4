import Verif.Common.Sum
/-!
# Model of `ThreadTaskRunnerImpl` (src/YY/Base/Threading/ThreadTaskRunnerImpl.h, .cpp)

One runner bound to one thread, any number of further threads that post tasks, stop or join it.
One step = one access of `uWakeupCountAndPushLock`, one queue or message queue operation, or the start / end of user code.

Simplifications: the task queue is a sequence with atomic `Push`/`Pop` (C32, its one-producer/one-consumer premise is C65); posts made by user code on the runner's own thread are made by a further
thread; a wake-up message is a counter and `PostThreadMessage` does not fail once the thread runs; other messages, wait handles, timeouts and APCs may end the wait at any moment; which timers and
handles are due is not modelled (C40-C43, C54), only that callbacks run there; the loop kind is the parameter `bg` (the code reads it once per loop from the word, 413; `Exchange` at 444 clears
it, which only matters for a loop started after termination); at most one clean-up per loop exit, the destructor's is not modelled.
-/
namespace Verif.ThreadRunner
open Verif.Common

/-- 2^28, number of values of `uWakeupCount`; 2^32 -/
@[irreducible] def m28 : Nat := 268435456
@[irreducible] def m32 : Nat := 4294967296

/-- `uWakeupCountAndPushLock` (.h 39-50) -/
structure Word where
  lock : Bool := false
  stop : Bool := false
  intr : Bool := false
  bg : Bool := false
  /-- `uWakeupCount`, 28 bits -/
  cnt : Nat := 0
deriving DecidableEq

/-- the 32-bit number -/
def Word.raw (w : Word) : Nat := w.lock.toNat + 2 * w.stop.toNat + 4 * w.intr.toNat + 8 * w.bg.toNat + 16 * w.cnt

/-- the fields of a 32-bit number -/
def Word.ofRaw (x : Nat) : Word :=
  { lock := x % 2 == 1, stop := x / 2 % 2 == 1, intr := x / 4 % 2 == 1, bg := x / 8 % 2 == 1, cnt := x / 16 % m28 }

/-- `Sync::Add(&…, UnlockQueuePushLockBitAndWakeupOnceRaw)` (294, .h 62) -/
def Word.add15 (w : Word) : Word := .ofRaw (w.raw + 15)

/-- `Sync::Subtract(&…, WakeupOnceRaw * n)` (115, 182): only the counter field changes -/
def Word.sub (w : Word) (n : Nat) : Word := { w with cnt := ((w.cnt : Int) - n).emod m28 |>.toNat }

/-- `TerminateTaskRunnerRaw` (.h 63) -/
def terminated : Word := { stop := true, intr := true }

/-- subtraction of `uint32_t` numbers -/
def sub32 (a b : Nat) : Nat := (((a : Int) - b).emod m32).toNat

/-- where user code that is not a queue task runs -/
inductive Kind where
  | msg | drain | timer | wait
deriving DecidableEq

/-- suspended by a nested loop -/
inductive Frame where
  | task (t : Nat)
  | cb (k : Kind)
deriving DecidableEq

/-- position of the runner's thread -/
inductive RPC where
  /-- not in `RunTaskRunnerLoop` -/
  | out
  /-- `IsShared` (81) / `PeekMessageW` (86) of the UI loop -/
  | peekChk | peek
  /-- `uPendingTaskCount = …` (102, 172) -/
  | load
  /-- 105 (UI loop) -/
  | chk
  /-- 111, 176 -/
  | dec
  /-- `ProcessingTimerTasks` (130, 179) -/
  | timers
  /-- 113-127, 180-194 -/
  | sub
  /-- `MsgWaitForMultipleObjectsEx` (134, 199) -/
  | sleep
  /-- 204, 209 of the background loop -/
  | drainChk | drain
  /-- 239 of the background loop -/
  | popChk
  /-- 150, 244 -/
  | pop
  /-- in a queue task (155, 249) -/
  | run (t : Nat)
  /-- in a message, timer or wait callback (99, 221, 130, 179, 145, 232) -/
  | cb (k : Kind)
  /-- the loop has returned (422) -/
  | ret
  /-- `CleanupTaskQueue` (433-446) -/
  | cleanup
deriving DecidableEq

/-- position of another thread -/
inductive PC where
  | idle
  /-- in `PostTaskInternal`, stop bit checked (275) -/
  | posting (t : Nat)
  /-- push lock taken (283) -/
  | locked (t : Nat)
  /-- pushed (285), next `Add` (294) -/
  | pushed
  /-- the same, `uTaskRunnerReentryCount` already read (operand order, 294) -/
  | pushedR (r : Nat)
  /-- `Add` done and has returned the number with counter `c`, next the comparison with `uTaskRunnerReentryCount` (294) -/
  | added (raw : Nat)
  /-- next `Wakeup` (298) -/
  | wake
  /-- in `WaitEqualOnAddress` of `Join` (49) -/
  | joining
deriving DecidableEq

structure St where
  word : Word
  queue : List Nat := []
  /-- wake-up messages in the thread's message queue -/
  msgs : Nat := 0
  shared : Bool := true
  pc : RPC := .out
  stack : List Frame := []
  /-- `uTaskRunnerReentryCount`, `uPendingTaskCount`, `uProcessedTaskCount` (.h 67-69) -/
  r : Nat := 0
  pend : Nat := 0
  proc : Nat := 0
  threads : List PC
  -- observations
  pushedLog : List Nat := []
  started : List Nat := []
  /-- some `CleanupTaskQueue` was entered -/
  cleaned : Bool := false
  /-- `Pop` returned nullptr at 150 / 244 -/
  nullPop : Bool := false

def afterStart (bg : Bool) : RPC := if bg then .load else .peekChk
def afterLoad (bg : Bool) : RPC := if bg then .dec else .chk
/-- pending == reentry - 1 -/
def afterDecIdle (bg : Bool) : RPC := if bg then .timers else .sub
def afterDecRun (bg : Bool) : RPC := if bg then .popChk else .pop
def afterTimers (bg : Bool) : RPC := if bg then .sub else .sleep
/-- 118-126, 185-193 with the new pending count -/
def afterSub (bg : Bool) (pend r : Nat) : RPC :=
  if pend ≠ 0 ∧ r ≤ pend then (if bg then .dec else .peekChk) else (if bg then .sleep else .timers)
/-- `uProcessedTaskCount` is zero -/
def afterSub0 (bg : Bool) : RPC := if bg then .sleep else .timers
def afterRun (bg : Bool) : RPC := if bg then .dec else .chk
def afterCb (bg : Bool) : Kind → RPC
  | .msg => .peekChk
  | .drain => .drainChk
  | .timer => .timers
  | .wait => afterStart bg

/-- where the caller of the loop goes on -/
def resume : List Frame → RPC
  | [] => .out
  | .task t :: _ => .run t
  | .cb k :: _ => .cb k

/-- restrictions on the environment -/
structure Env where
  /-- callbacks other than queue tasks may start a nested loop (ThreadTaskRunner::RunUIMessageLoop, TaskRunner.cpp 454-476) -/
  nestCb : Bool := false
  /-- a timer callback may remove messages itself (a modal dialog, say) -/
  timerPump : Bool := false
  /-- the operand `uTaskRunnerReentryCount` at 294 may be read before the `Add` -/
  early : Bool := false

inductive Step (bg : Bool) (E : Env) : St → St → Prop
  -- other threads
  | refuse (s : St) (i t : Nat) (h : s.threads[i]? = some .idle) (hs : s.word.stop = true) : Step bg E s s
  | post (s : St) (i t : Nat) (h : s.threads[i]? = some .idle) (hs : s.word.stop = false) :
      Step bg E s { s with threads := s.threads.set i (.posting t) }
  | lock (s : St) (i t : Nat) (h : s.threads[i]? = some (.posting t)) (hl : s.word.lock = false) :
      Step bg E s { s with word := { s.word with lock := true }, threads := s.threads.set i (.locked t) }
  | push (s : St) (i t : Nat) (h : s.threads[i]? = some (.locked t)) :
      Step bg E s { s with queue := s.queue ++ [t], pushedLog := s.pushedLog ++ [t], threads := s.threads.set i .pushed }
  /-- fewer than 2^28 tasks are pending -/
  | add (s : St) (i : Nat) (h : s.threads[i]? = some .pushed) (hb : s.word.cnt + 1 < m28) :
      Step bg E s { s with word := s.word.add15, threads := s.threads.set i (.added s.word.add15.raw) }
  | readEarly (s : St) (i : Nat) (h : s.threads[i]? = some .pushed) (he : E.early = true) :
      Step bg E s { s with threads := s.threads.set i (.pushedR s.r) }
  | addEarly (s : St) (i r : Nat) (h : s.threads[i]? = some (.pushedR r)) (hb : s.word.cnt + 1 < m28) :
      Step bg E s { s with word := s.word.add15, threads := s.threads.set i (if s.word.add15.raw < 16 * (2 + r) then .wake else .idle) }
  | compare (s : St) (i x : Nat) (h : s.threads[i]? = some (.added x)) :
      Step bg E s { s with threads := s.threads.set i (if x < 16 * (2 + s.r) then .wake else .idle) }
  | wake (s : St) (i : Nat) (h : s.threads[i]? = some .wake) :
      Step bg E s { s with msgs := s.msgs + 1, threads := s.threads.set i .idle }
  /-- the thread has not started or has ended (451-456) -/
  | wakeLost (s : St) (i : Nat) (h : s.threads[i]? = some .wake) (ho : s.pc = .out) :
      Step bg E s { s with threads := s.threads.set i .idle }
  /-- `Join` (41-45) -/
  | join (s : St) (i : Nat) (h : s.threads[i]? = some .idle) :
      Step bg E s { s with word := { s.word with stop := true }, threads := s.threads.set i (if s.word.raw < 16 then .idle else .joining) }
  | joined (s : St) (i : Nat) (h : s.threads[i]? = some .joining) (hw : s.word.raw = terminated.raw) :
      Step bg E s { s with threads := s.threads.set i .idle }
  /-- 59, 268, 264 -/
  | interrupt (s : St) : Step bg E s { s with word := { s.word with stop := true, intr := true } }
  | disable (s : St) : Step bg E s { s with word := { s.word with stop := true } }
  | enable (s : St) : Step bg E s { s with word := { s.word with stop := false } }
  | unshare (s : St) : Step bg E s { s with shared := false }
  -- the runner's thread
  | enter (s : St) (h : s.pc = .out) : Step bg E s { s with pc := afterStart bg, r := s.r + 1 }
  | nestTask (s : St) (t : Nat) (h : s.pc = .run t) : Step bg E s { s with pc := afterStart bg, r := s.r + 1, stack := .task t :: s.stack }
  | nestCb (s : St) (k : Kind) (h : s.pc = .cb k) (he : E.nestCb = true) :
      Step bg E s { s with pc := afterStart bg, r := s.r + 1, stack := .cb k :: s.stack }
  | peekChk (s : St) (h : s.pc = .peekChk) : Step bg E s { s with pc := if s.shared then .peek else .ret }
  /-- a wake-up message / another message / WM_QUIT / nothing -/
  | peekWake (s : St) (h : s.pc = .peek) (hm : 0 < s.msgs) : Step bg E s { s with msgs := s.msgs - 1, pc := .peekChk }
  | peekMsg (s : St) (h : s.pc = .peek) : Step bg E s { s with pc := .cb .msg }
  | peekQuit (s : St) (h : s.pc = .peek) : Step bg E s { s with pc := .ret }
  | peekNone (s : St) (h : s.pc = .peek) (hm : s.msgs = 0) : Step bg E s { s with pc := .load }
  | load (s : St) (h : s.pc = .load) : Step bg E s { s with pend := sub32 s.word.cnt s.proc, pc := afterLoad bg }
  | chk (s : St) (h : s.pc = .chk) : Step bg E s { s with pc := if s.shared = false ∨ s.word.intr = true then .ret else .dec }
  | decIdle (s : St) (h : s.pc = .dec) (hp : s.pend = sub32 s.r 1) : Step bg E s { s with pc := afterDecIdle bg }
  | decRun (s : St) (h : s.pc = .dec) (hp : s.pend ≠ sub32 s.r 1) : Step bg E s { s with pc := afterDecRun bg }
  | timerCb (s : St) (h : s.pc = .timers) : Step bg E s { s with pc := .cb .timer }
  | timerDone (s : St) (h : s.pc = .timers) : Step bg E s { s with pc := afterTimers bg }
  | sub (s : St) (h : s.pc = .sub) (hp : s.proc ≠ 0) :
      Step bg E s { s with word := s.word.sub s.proc, proc := 0, pend := (s.word.sub s.proc).cnt, pc := afterSub bg (s.word.sub s.proc).cnt s.r }
  | sub0 (s : St) (h : s.pc = .sub) (hp : s.proc = 0) : Step bg E s { s with pc := afterSub0 bg }
  /-- the wait ends; a message ends it in the background loop with 200, in the UI loop with 145-146 -/
  | wokenMsg (s : St) (h : s.pc = .sleep) : Step bg E s { s with pc := if bg then .drainChk else .peekChk }
  | wokenOther (s : St) (h : s.pc = .sleep) : Step bg E s { s with pc := afterStart bg }
  | wokenWait (s : St) (h : s.pc = .sleep) : Step bg E s { s with pc := .cb .wait }
  | drainChk (s : St) (h : s.pc = .drainChk) : Step bg E s { s with pc := if s.shared = false ∨ s.word.intr = true then .ret else .drain }
  | drainWake (s : St) (h : s.pc = .drain) (hm : 0 < s.msgs) : Step bg E s { s with msgs := s.msgs - 1, pc := .drainChk }
  | drainMsg (s : St) (h : s.pc = .drain) : Step bg E s { s with pc := .cb .drain }
  | drainQuit (s : St) (h : s.pc = .drain) : Step bg E s { s with pc := .ret }
  | drainNone (s : St) (h : s.pc = .drain) (hm : s.msgs = 0) : Step bg E s { s with pc := .load }
  | popChk (s : St) (h : s.pc = .popChk) : Step bg E s { s with pc := if s.shared = false ∨ s.word.intr = true then .ret else .pop }
  | pop (s : St) (t : Nat) (q : List Nat) (h : s.pc = .pop) (hq : s.queue = t :: q) :
      Step bg E s { s with queue := q, started := s.started ++ [t], pc := .run t }
  | popNone (s : St) (h : s.pc = .pop) (hq : s.queue = []) : Step bg E s { s with nullPop := true, pc := afterRun bg }
  /-- the task returns (156-157, 250-251) -/
  | runEnd (s : St) (t : Nat) (h : s.pc = .run t) : Step bg E s { s with proc := s.proc + 1, pend := sub32 s.pend 1, pc := afterRun bg }
  | cbEnd (s : St) (k : Kind) (h : s.pc = .cb k) : Step bg E s { s with pc := afterCb bg k }
  /-- user code removes messages -/
  | pumpTask (s : St) (t : Nat) (h : s.pc = .run t) (hm : 0 < s.msgs) : Step bg E s { s with msgs := s.msgs - 1 }
  | pumpCb (s : St) (k : Kind) (h : s.pc = .cb k) (he : k = .timer → E.timerPump = true) (hm : 0 < s.msgs) : Step bg E s { s with msgs := s.msgs - 1 }
  /-- 422-430 -/
  | leave (s : St) (h : s.pc = .ret) (hc : s.shared = true ∧ s.word.intr = false ∧ ¬(s.word.stop = true ∧ s.word.cnt = 0)) :
      Step bg E s { s with r := s.r - 1, pc := resume s.stack, stack := s.stack.tail }
  | leaveClean (s : St) (h : s.pc = .ret) (hc : s.shared = false ∨ s.word.intr = true ∨ (s.word.stop = true ∧ s.word.cnt = 0)) :
      Step bg E s { s with r := s.r - 1, pc := .cleanup, cleaned := true }
  | cleanPop (s : St) (t : Nat) (q : List Nat) (h : s.pc = .cleanup) (hq : s.queue = t :: q) : Step bg E s { s with queue := q }
  | cleanEnd (s : St) (h : s.pc = .cleanup) (hq : s.queue = []) :
      Step bg E s { s with word := terminated, pc := resume s.stack, stack := s.stack.tail }

/-- constructor (16-21) -/
def Init (bg : Bool) (s : St) : Prop := ∃ n, s = { word := { bg := bg }, threads := List.replicate n .idle }

inductive Reach (bg : Bool) (E : Env) : St → Prop
  | init (s : St) (h : Init bg s) : Reach bg E s
  | step (s s' : St) (h : Reach bg E s) (hs : Step bg E s s') : Reach bg E s'

end Verif.ThreadRunner
