import Verif.Common.Sum
/-!
# Model of `ParallelTaskRunnerImpl` (src/YY/Base/Threading/ParallelTaskRunnerImpl.hpp 129-411)

One runner, any number of threads; a thread may post tasks, stop the runner, or act as a pool thread that executes the runner.
One step = one access of `TaskRunnerFlags`, one queue operation, or the start / end of a task.

Simplifications: the task queue is a sequence with atomic `Push`/`Pop` (C32); the 64-bit word is a record of its fields; an iteration of a compare-exchange loop that fails, or that
sees the push lock, changes nothing and is not a step (243, 262, 381); a task that posts to its own runner counts as a further thread; "a job was handed to the thread pool" is the
counter `pool`; the loss of all user references is the flag `shared` (the reference that `AddRef`/`Release` keep for the executors is not modelled).
-/
namespace Verif.Parallel
open Verif.Common

/-- `TaskRunnerFlagsType` (136-151) -/
structure Word where
  lock : Bool := false
  stop : Bool := false
  intr : Bool := false
  pop : Bool := false
  /-- `uWakeupCount`, 28 bits signed -/
  cnt : Int := 0
  /-- `uParallelCurrent`, 32 bits unsigned -/
  par : Nat := 0
deriving DecidableEq

/-- number of values of the 28-bit field `uWakeupCount`; half of it -/
@[irreducible] def cntMod : Nat := 268435456
@[irreducible] def cntHalf : Int := 134217728

/-- the value of the 28-bit field after arithmetic on the word -/
def wrap (x : Int) : Int := x.bmod cntMod

/-- `(int32_t)` of a 32-bit unsigned number (249, 373) -/
def i32 (x : Nat) : Int := if x < 2147483648 then x else (x : Int) - 4294967296

/-- the effective maximum (232) -/
def effective (uParallelMaximum processors : Nat) : Nat := if uParallelMaximum ≠ 0 then uParallelMaximum else processors

inductive PC where
  | idle
  /-- in `PostTaskInternal` (222-288), the check of `bStopWakeup` (226) is passed -/
  | posting (t : Nat)
  /-- compare-exchange done (254), next `Push` (257); `raised`: `uParallelCurrent` was increased -/
  | pushing (t : Nat) (raised : Bool)
  /-- next `BitReset` of the lock (258) -/
  | unlocking (raised : Bool)
  /-- next `PostTaskInternalWithoutAddRef` (274) -/
  | schedule
  /-- the pool has refused, stop bit set (278), next `Decrement` (279) -/
  | failDec
  /-- next `IsShared` (338) / `bInterrupt` (341) / `BitSet` in `PopTask` (298) -/
  | exCheck
  | exIntr
  | exPopLock
  /-- next `Pop` (300) / `BitReset` (301) -/
  | exPop
  | exUnpop (t : Option Nat)
  /-- task popped, not yet started / running (348) -/
  | exTask (t : Nat)
  | exRunning (t : Nat)
  /-- next `SubtractWakeupOnce` (350) -/
  | exSub
  /-- loop left by `break`, next `Decrement` (358) -/
  | exBreak
  /-- next the decision in `operator()` (317-319) -/
  | exExit
  /-- next `BitSet` in `CleanupTaskQueue` (395) -/
  | cleanLock
  /-- its loop (397-404), then `Exchange` (406) -/
  | cleanup
deriving DecidableEq

structure St where
  word : Word := {}
  queue : List Nat := []
  /-- jobs handed to the thread pool and not yet picked up -/
  pool : Nat := 0
  shared : Bool := true
  threads : List PC
  -- observations
  started : List Nat := []
  /-- some `CleanupTaskQueue` has written the word -/
  cleaned : Bool := false

/-- 247-252: is `uParallelCurrent` raised? -/
def raises (mx : Nat) (w : Word) : Bool := decide (w.par < mx) && decide (wrap (w.cnt + 1) ≥ i32 w.par)

/-- 371-375: does the executor leave? -/
def leaves (w : Word) : Bool := decide (wrap (w.cnt - 1) < i32 w.par)

/-- Steps of a runner with effective maximum `mx`. `calm = true` describes only those schedules in which no executor calls `Pop` while a poster is between its compare-exchange and its unlock,
and in which fewer than 2^27 tasks are pending. -/
inductive Step (mx : Nat) (calm : Bool) : St → St → Prop
  | refuse (s : St) (i t : Nat) (h : s.threads[i]? = some .idle) (hs : s.word.stop = true) : Step mx calm s s
  | post (s : St) (i t : Nat) (h : s.threads[i]? = some .idle) (hs : s.word.stop = false) :
      Step mx calm s { s with threads := s.threads.set i (.posting t) }
  | cas (s : St) (i t : Nat) (h : s.threads[i]? = some (.posting t)) (hl : s.word.lock = false) (hb : calm = true → s.word.cnt + 1 < cntHalf) :
      Step mx calm s { s with word := { s.word with lock := true, cnt := wrap (s.word.cnt + 1), par := s.word.par + (raises mx s.word).toNat },
                              threads := s.threads.set i (.pushing t (raises mx s.word)) }
  | push (s : St) (i t : Nat) (b : Bool) (h : s.threads[i]? = some (.pushing t b)) :
      Step mx calm s { s with queue := s.queue ++ [t], threads := s.threads.set i (.unlocking b) }
  | unlock (s : St) (i : Nat) (b : Bool) (h : s.threads[i]? = some (.unlocking b)) :
      Step mx calm s { s with word := { s.word with lock := false }, threads := s.threads.set i (if b then .schedule else .idle) }
  | schedule (s : St) (i : Nat) (h : s.threads[i]? = some .schedule) :
      Step mx calm s { s with pool := s.pool + 1, threads := s.threads.set i .idle }
  | scheduleFail (s : St) (i : Nat) (h : s.threads[i]? = some .schedule) :
      Step mx calm s { s with word := { s.word with stop := true }, threads := s.threads.set i .failDec }
  | failDec (s : St) (i : Nat) (h : s.threads[i]? = some .failDec) :
      Step mx calm s { s with word := { s.word with par := s.word.par - 1 }, threads := s.threads.set i .idle }
  /-- `BitOr` of `Join` (200), `Interrupt` (218) -/
  | join (s : St) : Step mx calm s { s with word := { s.word with stop := true } }
  | interrupt (s : St) : Step mx calm s { s with word := { s.word with stop := true, intr := true } }
  | unshare (s : St) : Step mx calm s { s with shared := false }
  /-- a pool thread picks a job up (308) -/
  | exStart (s : St) (i : Nat) (h : s.threads[i]? = some .idle) (hp : 0 < s.pool) :
      Step mx calm s { s with pool := s.pool - 1, threads := s.threads.set i .exCheck }
  | exCheck (s : St) (i : Nat) (h : s.threads[i]? = some .exCheck) :
      Step mx calm s { s with threads := s.threads.set i (if s.shared then .exIntr else .exBreak) }
  | exIntr (s : St) (i : Nat) (h : s.threads[i]? = some .exIntr) :
      Step mx calm s { s with threads := s.threads.set i (if s.word.intr then .exBreak else .exPopLock) }
  | exPopLock (s : St) (i : Nat) (h : s.threads[i]? = some .exPopLock) (hp : s.word.pop = false) :
      Step mx calm s { s with word := { s.word with pop := true }, threads := s.threads.set i .exPop }
  | exPop (s : St) (i t : Nat) (q : List Nat) (h : s.threads[i]? = some .exPop) (hq : s.queue = t :: q) (hc : calm = true → s.word.lock = false) :
      Step mx calm s { s with queue := q, threads := s.threads.set i (.exUnpop (some t)) }
  | exPopNone (s : St) (i : Nat) (h : s.threads[i]? = some .exPop) (hq : s.queue = []) (hc : calm = true → s.word.lock = false) :
      Step mx calm s { s with threads := s.threads.set i (.exUnpop none) }
  | exUnpop (s : St) (i : Nat) (t : Nat) (h : s.threads[i]? = some (.exUnpop (some t))) :
      Step mx calm s { s with word := { s.word with pop := false }, threads := s.threads.set i (.exTask t) }
  | exUnpopNone (s : St) (i : Nat) (h : s.threads[i]? = some (.exUnpop none)) :
      Step mx calm s { s with word := { s.word with pop := false }, threads := s.threads.set i .exBreak }
  | exStartTask (s : St) (i t : Nat) (h : s.threads[i]? = some (.exTask t)) :
      Step mx calm s { s with started := s.started ++ [t], threads := s.threads.set i (.exRunning t) }
  | exEndTask (s : St) (i t : Nat) (h : s.threads[i]? = some (.exRunning t)) :
      Step mx calm s { s with threads := s.threads.set i .exSub }
  | exSub (s : St) (i : Nat) (h : s.threads[i]? = some .exSub) :
      Step mx calm s { s with word := { s.word with cnt := wrap (s.word.cnt - 1), par := s.word.par - (leaves s.word).toNat },
                              threads := s.threads.set i (if leaves s.word then .exExit else .exCheck) }
  | exBreak (s : St) (i : Nat) (h : s.threads[i]? = some .exBreak) :
      Step mx calm s { s with word := { s.word with par := s.word.par - 1 }, threads := s.threads.set i .exExit }
  /-- no clean-up (317-319) -/
  | exLeave (s : St) (i : Nat) (h : s.threads[i]? = some .exExit) :
      Step mx calm s { s with threads := s.threads.set i .idle }
  | exCleanup (s : St) (i : Nat) (h : s.threads[i]? = some .exExit)
      (hc : s.shared = false ∨ s.word.intr = true ∨ (s.word.stop = true ∧ s.word.cnt = 0)) :
      Step mx calm s { s with threads := s.threads.set i .cleanLock }
  | cleanBusy (s : St) (i : Nat) (h : s.threads[i]? = some .cleanLock) (hp : s.word.pop = true) :
      Step mx calm s { s with threads := s.threads.set i .idle }
  | cleanLock (s : St) (i : Nat) (h : s.threads[i]? = some .cleanLock) (hp : s.word.pop = false) :
      Step mx calm s { s with word := { s.word with pop := true }, threads := s.threads.set i .cleanup }
  | cleanPop (s : St) (i t : Nat) (q : List Nat) (h : s.threads[i]? = some .cleanup) (hq : s.queue = t :: q) :
      Step mx calm s { s with queue := q }
  /-- `Exchange` of the lower 32 bits with `TerminateTaskRunnerRaw`: all locks and the counter are cleared, `uParallelCurrent` stays (406) -/
  | cleanEnd (s : St) (i : Nat) (h : s.threads[i]? = some .cleanup) (hq : s.queue = []) :
      Step mx calm s { s with word := { stop := true, intr := true, par := s.word.par }, cleaned := true, threads := s.threads.set i .idle }

def Init (s : St) : Prop := ∃ n, s = { threads := List.replicate n .idle }

inductive Reach (mx : Nat) (calm : Bool) : St → Prop
  | init (s : St) (h : Init s) : Reach mx calm s
  | step (s s' : St) (h : Reach mx calm s) (hs : Step mx calm s s') : Reach mx calm s'

end Verif.Parallel
