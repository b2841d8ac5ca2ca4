import Verif.Common.Sum
/-!
# Model of `SequencedTaskRunnerImpl` (src/YY/Base/Threading/SequencedTaskRunnerImpl.cpp, .h)

One runner, any number of threads; each thread may post tasks, stop the runner, or act as a pool thread executing the runner.
One step = one access of `uWakeupCountAndPushLock`, one queue operation, or the start / end of a task.

Simplifications: the task queue is a sequence with atomic `Push`/`Pop` (see C32 for the queue itself); the 32-bit word is a record of its four bit fields
(`Word.raw` gives the packed value, the correspondence with the bit arithmetic of the code is proved in Lemmas.lean); "a job was handed to the thread pool" is the
counter `pool`; the loss of all user references is the flag `shared`.
-/
namespace Verif.Sequenced
open Verif.Common

/-- `uWakeupCountAndPushLock` (SequencedTaskRunnerImpl.h 20-30): bit 0 push lock, bit 1 stop, bit 2 interrupt, 29 bits count. -/
structure Word where
  lock : Bool := false
  stop : Bool := false
  intr : Bool := false
  cnt : Nat := 0
deriving DecidableEq

/-- Number of values of the 29-bit field `uWakeupCount`. -/
@[irreducible] def cntMod : Nat := 536870912

def Word.raw (w : Word) : Nat := w.lock.toNat + 2 * w.stop.toNat + 4 * w.intr.toNat + 8 * w.cnt

/-- `TerminateTaskRunnerRaw` (.h 46) -/
def terminate : Word := { stop := true, intr := true }

inductive PC where
  | idle
  /-- in `PostTaskInternal` (.cpp 62-104), `_fFlags = f` (66, 77, 88) -/
  | loaded (t : Nat) (f : Word)
  /-- compare-exchange done (81), next `Push` (84); `first` = `_fFlags < WakeupOnceRaw` -/
  | pushing (t : Nat) (first : Bool)
  /-- next `BitReset` of the lock (85) -/
  | unlocking (first : Bool)
  /-- next `ThreadPool::PostTaskInternal` (94) -/
  | schedule
  /-- top of the loop in `ExecuteTaskRunner` (137) -/
  | exCheck
  /-- next `Pop` (140) -/
  | exPop
  /-- task popped, not yet started -/
  | exTask (t : Nat)
  /-- task running (143) -/
  | exRunning (t : Nat)
  /-- next `Subtract` (146) -/
  | exSub
  /-- loop left, next the decision in `operator()` (115-117) -/
  | exExit
  /-- in `CleanupTaskQueue` (157-170) -/
  | cleanup
deriving DecidableEq

structure St where
  word : Word := {}
  queue : List Nat := []
  /-- jobs handed to the thread pool and not yet picked up -/
  pool : Nat := 0
  shared : Bool := true
  threads : List PC
  -- observations
  /-- tasks in the order they entered the queue -/
  pushed : List Nat := []
  /-- tasks in the order they left the queue / were popped for execution / were started -/
  dequeued : List Nat := []
  taken : List Nat := []
  started : List Nat := []
  /-- some `CleanupTaskQueue` has removed a task -/
  cleaned : Bool := false

/-- Steps. `calm = true` describes only those schedules in which the executor does not call `Pop` while a poster is between its compare-exchange
and its unlock; the code guarantees only `calm = false`. -/
inductive Step (calm : Bool) : St → St → Prop
  | post (s : St) (i t : Nat) (h : s.threads[i]? = some .idle) :
      Step calm s { s with threads := s.threads.set i (.loaded t s.word) }
  /-- stop bit seen: the task is cancelled (69-73) -/
  | refuse (s : St) (i t : Nat) (f : Word) (h : s.threads[i]? = some (.loaded t f)) (hf : f.stop = true) :
      Step calm s { s with threads := s.threads.set i .idle }
  /-- lock bit seen: load again (74-79) -/
  | reload (s : St) (i t : Nat) (f : Word) (h : s.threads[i]? = some (.loaded t f)) (hf : f.stop = false) (hl : f.lock = true) :
      Step calm s { s with threads := s.threads.set i (.loaded t s.word) }
  /-- compare-exchange fails (88) -/
  | casFail (s : St) (i t : Nat) (f : Word) (h : s.threads[i]? = some (.loaded t f)) (hf : f.stop = false) (hl : f.lock = false) (hw : s.word ≠ f) :
      Step calm s { s with threads := s.threads.set i (.loaded t s.word) }
  /-- compare-exchange succeeds (81-82); fewer than 2^29 tasks are pending -/
  | casOk (s : St) (i t : Nat) (f : Word) (h : s.threads[i]? = some (.loaded t f)) (hf : f.stop = false) (hl : f.lock = false) (hw : s.word = f)
      (hb : f.cnt + 1 < cntMod) :
      Step calm s { s with word := { f with lock := true, cnt := f.cnt + 1 }, threads := s.threads.set i (.pushing t (decide (f.cnt = 0))) }
  | push (s : St) (i t : Nat) (b : Bool) (h : s.threads[i]? = some (.pushing t b)) :
      Step calm s { s with queue := s.queue ++ [t], pushed := s.pushed ++ [t], threads := s.threads.set i (.unlocking b) }
  | unlock (s : St) (i : Nat) (b : Bool) (h : s.threads[i]? = some (.unlocking b)) :
      Step calm s { s with word := { s.word with lock := false }, threads := s.threads.set i (if b then .schedule else .idle) }
  | schedule (s : St) (i : Nat) (h : s.threads[i]? = some .schedule) :
      Step calm s { s with pool := s.pool + 1, threads := s.threads.set i .idle }
  /-- the pool refuses: stop and clean up (95-101) -/
  | scheduleFail (s : St) (i : Nat) (h : s.threads[i]? = some .schedule) :
      Step calm s { s with word := { s.word with stop := true }, threads := s.threads.set i .cleanup }
  /-- `BitOr(Stop)` of `Join` (40) -/
  | join (s : St) : Step calm s { s with word := { s.word with stop := true } }
  /-- `Interrupt` (58) -/
  | interrupt (s : St) : Step calm s { s with word := { s.word with stop := true, intr := true } }
  /-- the users drop their last reference -/
  | unshare (s : St) : Step calm s { s with shared := false }
  /-- a pool thread picks the job up (`operator()`, 106) -/
  | exStart (s : St) (i : Nat) (h : s.threads[i]? = some .idle) (hp : 0 < s.pool) :
      Step calm s { s with pool := s.pool - 1, threads := s.threads.set i .exCheck }
  | exCheck (s : St) (i : Nat) (h : s.threads[i]? = some .exCheck) :
      Step calm s { s with threads := s.threads.set i .exPop }
  /-- `!IsShared()` (137) -/
  | exUnshared (s : St) (i : Nat) (h : s.threads[i]? = some .exCheck) (hs : s.shared = false) :
      Step calm s { s with threads := s.threads.set i .exExit }
  | exPop (s : St) (i t : Nat) (q : List Nat) (h : s.threads[i]? = some .exPop) (hq : s.queue = t :: q) (hc : calm = true → s.word.lock = false) :
      Step calm s { s with queue := q, dequeued := s.dequeued ++ [t], taken := s.taken ++ [t], threads := s.threads.set i (.exTask t) }
  /-- `Pop` finds nothing (141-142) -/
  | exPopNone (s : St) (i : Nat) (h : s.threads[i]? = some .exPop) (hq : s.queue = []) (hc : calm = true → s.word.lock = false) :
      Step calm s { s with threads := s.threads.set i .exExit }
  | exStartTask (s : St) (i t : Nat) (h : s.threads[i]? = some (.exTask t)) :
      Step calm s { s with started := s.started ++ [t], threads := s.threads.set i (.exRunning t) }
  | exEndTask (s : St) (i t : Nat) (h : s.threads[i]? = some (.exRunning t)) :
      Step calm s { s with threads := s.threads.set i .exSub }
  /-- `Subtract` and the two exits (146-151) -/
  | exSub (s : St) (i : Nat) (h : s.threads[i]? = some .exSub) :
      Step calm s { s with word := { s.word with cnt := (s.word.cnt + cntMod - 1) % cntMod },
                           threads := s.threads.set i (if s.word.intr || decide ((s.word.cnt + cntMod - 1) % cntMod = 0) then .exExit else .exCheck) }
  /-- no clean-up (115-117) -/
  | exLeave (s : St) (i : Nat) (h : s.threads[i]? = some .exExit) :
      Step calm s { s with threads := s.threads.set i .idle }
  | exCleanup (s : St) (i : Nat) (h : s.threads[i]? = some .exExit)
      (hc : s.shared = false ∨ s.word.intr = true ∨ (s.word.stop = true ∧ s.word.cnt = 0)) :
      Step calm s { s with threads := s.threads.set i .cleanup }
  | cleanPop (s : St) (i t : Nat) (q : List Nat) (h : s.threads[i]? = some .cleanup) (hq : s.queue = t :: q) :
      Step calm s { s with queue := q, dequeued := s.dequeued ++ [t], cleaned := true }
  | cleanEnd (s : St) (i : Nat) (h : s.threads[i]? = some .cleanup) (hq : s.queue = []) :
      Step calm s { s with word := terminate, threads := s.threads.set i .idle }

def Init (s : St) : Prop := ∃ n, s = { threads := List.replicate n .idle }

inductive Reach (calm : Bool) : St → Prop
  | init (s : St) (h : Init s) : Reach calm s
  | step (s s' : St) (h : Reach calm s) (hs : Step calm s s') : Reach calm s'

/-- reachable from a given state -/
inductive ReachFrom (calm : Bool) (s₀ : St) : St → Prop
  | refl : ReachFrom calm s₀ s₀
  | step (s s' : St) (h : ReachFrom calm s₀ s) (hs : Step calm s s') : ReachFrom calm s₀ s'

end Verif.Sequenced
