/-!
# Model of the thread pool for Linux

`ThreadPool::ExecuteTask` and `ThreadPool::TaskExecuteRoutine` (src/YY/Base/Threading/ThreadPool.Linux.cc 15-123): a stack of idle threads, woken by `SIGUSR1`, a queue for
the time when the limit of threads is reached.

`InterlockedSingleLinkedList::Pop` (InterlockedSingleLinkedList.h 92-113) is modelled access by access, because the pool calls it from every thread although it is written for
one (line 88 there).  Simplifications: sequentially consistent memory; `Push` onto the stack (56-72) is one step (it takes effect with its `CompareExchange`); the pending
queue is a FIFO with atomic `Push` and `Pop` (it is an `InterlockedQueue` for one producer and one consumer, C32; the pool has many of both, so this is generous); the two
stores of lines 20-21 are one step, as are 91-92 (nobody else may look in between); a node that is not on the stack has `pNext == nullptr` (line 104 there);
a new thread does not inherit a mask that blocks `SIGUSR1` and the process has no handler for it (nothing in the
library installs either); `sigwait` on a set of one valid signal does not fail and nobody else sends `SIGUSR1`, so lines 110-122 after `break` are never reached.
-/
namespace Verif.LinuxPool

/-- where a thread of the pool is -/
inductive TPc where
  /-- line 88 -/
  | run
  /-- in the callback of line 90 -/
  | cb
  /-- line 97 -/
  | drain
  /-- in the callback of line 101 -/
  | cb2
  /-- after line 107, before line 109 -/
  | idle1
  /-- in `sigwait` (110) -/
  | wait
deriving DecidableEq

/-- `ThreadInfoEntry` (ThreadPool.Linux.h 22-29) with the state of its thread.  Tasks are numbered by their call of `ExecuteTask`. -/
structure Thr where
  pc : TPc := .run
  /-- `pfnCallback` and `pUserData` -/
  slot : Option Nat
  /-- `SIGUSR1` is blocked (after 109) -/
  masked : Bool := false
  /-- `SIGUSR1` is pending -/
  sig : Bool := false
  /-- `hThread` has been written: `pthread_create` may do so after the thread has started -/
  handle : Bool := false
deriving DecidableEq

/-- where a call of `ExecuteTask` is -/
inductive PPc where
  /-- 17, `Pop` 94 -/
  | pop
  /-- `Pop` 101: `pHead` was `a`, `a->pNext` is read next -/
  | popAt (a : Nat)
  /-- `Pop` 101: `CompareExchange` of `a` with `n` next -/
  | popNext (a : Nat) (n : Option Nat)
  /-- 20 -/
  | got (a : Nat)
  /-- 23 -/
  | kill (a : Nat)
  /-- 27 -/
  | count
  /-- 29, with the value of `uCurrentThreadCount` -/
  | loop (c : Nat)
  /-- 32 -/
  | full
  /-- 49 -/
  | alloc
  /-- in `pthread_create`: the thread exists, `hThread` is not written -/
  | made (a : Nat)
  /-- returned; `true` is `S_OK` -/
  | done (ok : Bool)
deriving DecidableEq

structure St where
  /-- `uThreadCount` -/
  count : Nat := 0
  /-- `oIdleThreadQueue`, `pHead` first -/
  idle : List Nat := []
  /-- `oPendingTaskQueue` -/
  pending : List Nat := []
  threads : List Thr := []
  posters : List PPc := []
  /-- ghost: the callbacks that have been started -/
  ran : List Nat := []
  /-- the default action of `SIGUSR1` has ended the process, or `pthread_kill` got an indeterminate handle -/
  crashed : Bool := false

/-- `a->pNext` -/
def succ (a : Nat) (l : List Nat) : Option Nat := (l.dropWhile (fun x => decide (x ≠ a))).tail.head?

/-- the stack whose head is `n` -/
def from_ (n : Option Nat) (l : List Nat) : List Nat :=
  match n with
  | none => []
  | some n => if n ∈ l then l.dropWhile (fun x => decide (x ≠ n)) else [n]

/-- in `Pop` -/
def PPc.popping : PPc → Nat
  | .popAt _ => 1
  | .popNext _ _ => 1
  | _ => 0

/-- One step.  `M`: `MaxThreadsCount`; `multi`: `Pop` may be called by several threads at once.  The label tells the pool's own steps from new calls. -/
inductive Step (M : Nat) (multi : Bool) : Bool → St → St → Prop
  /-- a new call -/
  | call (s : St) : Step M multi false s { s with posters := s.posters ++ [.pop] }
  /-- `Pop` 94, 97 -/
  | popNull (s : St) (i : Nat) : s.posters[i]? = some .pop → s.idle = [] → Step M multi true s { s with posters := s.posters.set i .count }
  | popHead (s : St) (i a : Nat) : s.posters[i]? = some .pop → s.idle.head? = some a →
      (multi = false → ∀ (j : Nat) p, s.posters[j]? = some p → p.popping = 0) → Step M multi true s { s with posters := s.posters.set i (.popAt a) }
  /-- `Pop` 101 -/
  | popRead (s : St) (i a : Nat) : s.posters[i]? = some (.popAt a) →
      Step M multi true s { s with posters := s.posters.set i (.popNext a (succ a s.idle)) }
  | popCas (s : St) (i a : Nat) (n : Option Nat) : s.posters[i]? = some (.popNext a n) → s.idle.head? = some a →
      Step M multi true s { s with posters := s.posters.set i (.got a), idle := from_ n s.idle }
  /-- `Pop` 109 -/
  | popFail (s : St) (i a : Nat) (n : Option Nat) (b : Nat) : s.posters[i]? = some (.popNext a n) → s.idle.head? = some b → b ≠ a →
      Step M multi true s { s with posters := s.posters.set i (.popAt b) }
  | popFailNull (s : St) (i a : Nat) (n : Option Nat) : s.posters[i]? = some (.popNext a n) → s.idle = [] →
      Step M multi true s { s with posters := s.posters.set i .count }
  /-- 20-21 -/
  | hand (s : St) (i a : Nat) (th : Thr) : s.posters[i]? = some (.got a) → s.threads[a]? = some th →
      Step M multi true s { s with posters := s.posters.set i (.kill a), threads := s.threads.set a { th with slot := some i } }
  /-- 23: the signal is blocked, it becomes pending -/
  | kill (s : St) (i a : Nat) (th : Thr) : s.posters[i]? = some (.kill a) → s.threads[a]? = some th → th.masked = true → th.handle = true →
      Step M multi true s { s with posters := s.posters.set i (.done true), threads := s.threads.set a { th with sig := true } }
  /-- 23: it is not, or the handle is not there yet -/
  | killed (s : St) (i a : Nat) (th : Thr) : s.posters[i]? = some (.kill a) → s.threads[a]? = some th → (th.masked = false ∨ th.handle = false) →
      Step M multi true s { s with posters := s.posters.set i (.done true), crashed := true }
  /-- 27 -/
  | count (s : St) (i : Nat) : s.posters[i]? = some .count → Step M multi true s { s with posters := s.posters.set i (.loop s.count) }
  /-- 29 -/
  | full (s : St) (i c : Nat) : s.posters[i]? = some (.loop c) → M ≤ c → Step M multi true s { s with posters := s.posters.set i .full }
  /-- 36 -/
  | push (s : St) (i : Nat) : s.posters[i]? = some .full →
      Step M multi true s { s with posters := s.posters.set i (.done true), pending := s.pending ++ [i] }
  /-- 33-34 -/
  | pushFail (s : St) (i : Nat) : s.posters[i]? = some .full → Step M multi true s { s with posters := s.posters.set i (.done false) }
  /-- 40-44 -/
  | cas (s : St) (i c : Nat) : s.posters[i]? = some (.loop c) → c < M → s.count = c →
      Step M multi true s { s with posters := s.posters.set i .alloc, count := c + 1 }
  /-- 46 -/
  | casFail (s : St) (i c : Nat) : s.posters[i]? = some (.loop c) → c < M → s.count ≠ c →
      Step M multi true s { s with posters := s.posters.set i (.loop s.count) }
  /-- 50-54, 72-76 -/
  | allocFail (s : St) (i : Nat) : s.posters[i]? = some .alloc →
      Step M multi true s { s with posters := s.posters.set i (.done false), count := s.count - 1 }
  /-- 56-65: the new thread is number `threads.length` -/
  | create (s : St) (i : Nat) : s.posters[i]? = some .alloc →
      Step M multi true s { s with posters := s.posters.set i (.made s.threads.length), threads := s.threads ++ [{ slot := some i }] }
  /-- 60, 69 -/
  | created (s : St) (i a : Nat) (th : Thr) : s.posters[i]? = some (.made a) → s.threads[a]? = some th →
      Step M multi true s { s with posters := s.posters.set i (.done true), threads := s.threads.set a { th with handle := true } }
  /-- 88-90 -/
  | run (s : St) (a : Nat) (th : Thr) (x : Nat) : s.threads[a]? = some th → th.pc = .run → th.slot = some x →
      Step M multi true s { s with threads := s.threads.set a { th with pc := .cb }, ran := x :: s.ran }
  | runNone (s : St) (a : Nat) (th : Thr) : s.threads[a]? = some th → th.pc = .run → th.slot = none →
      Step M multi true s { s with threads := s.threads.set a { th with pc := .drain } }
  /-- 91-92 -/
  | clear (s : St) (a : Nat) (th : Thr) : s.threads[a]? = some th → th.pc = .cb →
      Step M multi true s { s with threads := s.threads.set a { th with pc := .drain, slot := none } }
  /-- 97-101 -/
  | take (s : St) (a : Nat) (th : Thr) (x : Nat) (rest : List Nat) : s.threads[a]? = some th → th.pc = .drain → s.pending = x :: rest →
      Step M multi true s { s with threads := s.threads.set a { th with pc := .cb2 }, pending := rest, ran := x :: s.ran }
  /-- 103 -/
  | took (s : St) (a : Nat) (th : Thr) : s.threads[a]? = some th → th.pc = .cb2 →
      Step M multi true s { s with threads := s.threads.set a { th with pc := .drain } }
  /-- 98-107 -/
  | park (s : St) (a : Nat) (th : Thr) : s.threads[a]? = some th → th.pc = .drain → s.pending = [] →
      Step M multi true s { s with threads := s.threads.set a { th with pc := .idle1 }, idle := a :: s.idle }
  /-- 109 -/
  | mask (s : St) (a : Nat) (th : Thr) : s.threads[a]? = some th → th.pc = .idle1 →
      Step M multi true s { s with threads := s.threads.set a { th with pc := .wait, masked := true } }
  /-- 110 -/
  | wake (s : St) (a : Nat) (th : Thr) : s.threads[a]? = some th → th.pc = .wait → th.sig = true →
      Step M multi true s { s with threads := s.threads.set a { th with pc := .run, sig := false } }

/-- `MaxThreadsCount` (13) -/
def maxThreads : Nat := 500

def init : St := {}

inductive Reach (M : Nat) (multi : Bool) : St → Prop
  | init : Reach M multi init
  | step {l s t} : Reach M multi s → Step M multi l s t → Reach M multi t

inductive Steps (M : Nat) (multi : Bool) : St → St → Prop
  | refl (s : St) : Steps M multi s s
  | tail {l s t u} : Steps M multi s t → Step M multi l t u → Steps M multi s u

end Verif.LinuxPool
