import Verif.Sequenced.Model
/-!
# Model of the life of a `SequencedTaskRunnerImpl` object (src/YY/Base/Threading/SequencedTaskRunnerImpl.cpp)

Every job handed to the pool owns a reference of the runner: `ThreadPool::PostTaskInternal` (ThreadPool.Windows.h 34-56) takes it before submitting and the callback gives it back
after `operator()`.  One runner, any number of threads. One step = one access of the word, of the reference count or of the queue, or the start or end of a task. The word
and the conditions on it are those of `Verif.Sequenced.Model`.

Simplifications: `Push` and `Pop` are atomic (C32, C44); users of the runner own `user` references, and a call of `PostTask` is made by an owner, who keeps the reference during the call; a
task may get a reference by `GetCurrent` (C94). The counts do not overflow. A failed or repeated round of the compare-exchange loop (74-79, 88) changes only the value loaded. The object is destroyed when the
count reaches 0 (RefPtr.h 51-63); the destructor (SequencedTaskRunnerImpl.cpp 23-26) cancels what is in the queue. After that every access is undefined behaviour: `bad` records
where it happened.
-/
namespace Verif.Sequenced.Life
open Verif.Common Verif.Sequenced

inductive PC where
  | idle
  /-- in `PostTaskInternal` with task `t`, `_fFlags = f` (66) -/
  | loaded (t : Nat) (f : Word)
  /-- next `Push` (84); `first`: the counter was 0 -/
  | pushing (t : Nat) (first : Bool)
  /-- next `BitReset` (85) -/
  | unlocking (first : Bool)
  /-- in `ThreadPool::PostTaskInternal`: next `AddRef` (ThreadPool.Windows.h 37) / `TrySubmitThreadpoolCallback` (38) / `Release` (52) -/
  | adding
  | submit
  | failRel
  /-- next `BitSet` (98) / in `CleanupTaskQueue` (99) -/
  | failStop
  | failClean
  /-- executor: next `IsShared` (137) / `Pop` (140); task popped; task running (143); next `Subtract` (146) -/
  | check
  | pop
  | task (t : Nat)
  | run (t : Nat)
  | sub
  /-- `ExecuteTaskRunner` has returned: next `IsShared` (115) / the flags (116-117); in `CleanupTaskQueue` (119) -/
  | tail
  | tail2
  | clean
  /-- next `Release` by the callback (ThreadPool.Windows.h 44) -/
  | rel
deriving DecidableEq

structure St where
  word : Word := {}
  queue : List Nat := []
  /-- jobs in the pool -/
  pool : Nat := 0
  /-- `uRef` -/
  refs : Nat := 1
  /-- references owned by users -/
  user : Nat := 1
  threads : List PC
  /-- the destructor has run -/
  dead : Bool := false
  /-- where the destroyed object was used (`idle`: by a user) -/
  bad : Option PC := none
  -- observations
  posted : List Nat := []
  ran : List Nat := []
  /-- `Wakeup(ERROR_CANCELLED)` -/
  cancelled : List Nat := []

/-- in `PostTaskInternal` -/
def PC.post : PC → Nat
  | .loaded _ _ | .pushing _ _ | .unlocking _ | .adding | .submit | .failRel | .failStop | .failClean => 1
  | _ => 0

/-- calls of `PostTask` going on -/
def St.posts (s : St) : Nat := sumBy PC.post s.threads

/-- `Release` (RefPtr.h 51-63): at 0 the destructor runs, which cancels the queued tasks -/
def St.release (s : St) : St :=
  if s.refs - 1 = 0 then { s with refs := 0, dead := true, queue := [], cancelled := s.cancelled ++ s.queue }
  else { s with refs := s.refs - 1 }

def St.set (s : St) (i : Nat) (pc : PC) : St := { s with threads := s.threads.set i pc }

inductive Step : St → St → Prop
  /-- any access of a destroyed runner -/
  | use (s : St) (i : Nat) (pc : PC) : s.threads[i]? = some pc → pc ≠ .idle → s.dead = true → Step s { s with bad := some pc }
  | useUser (s : St) : 0 < s.user → s.dead = true → Step s { s with bad := some .idle }
  | useJob (s : St) : 0 < s.pool → s.dead = true → Step s { s with bad := some .check }
  /-- users -/
  | copy (s : St) : s.dead = false → 0 < s.user → Step s { s with refs := s.refs + 1, user := s.user + 1 }
  | drop (s : St) : s.dead = false → s.posts < s.user → Step s { s.release with user := s.user - 1 }
  /-- a task takes a reference of its runner (`GetCurrent`) -/
  | keep (s : St) (i t : Nat) : s.dead = false → s.threads[i]? = some (.run t) → Step s { s with refs := s.refs + 1, user := s.user + 1 }
  /-- `Join` (40), `Interrupt` (58) -/
  | join (s : St) : s.dead = false → 0 < s.user → Step s { s with word := { s.word with stop := true } }
  | interrupt (s : St) : s.dead = false → 0 < s.user → Step s { s with word := { s.word with stop := true, intr := true } }
  /-- `PostTaskInternal` by an owner (62-66) -/
  | post (s : St) (i t : Nat) : s.dead = false → s.threads[i]? = some .idle → s.posts < s.user →
      Step s ({ s with posted := s.posted ++ [t] }.set i (.loaded t s.word))
  | refuse (s : St) (i t : Nat) (f : Word) : s.dead = false → s.threads[i]? = some (.loaded t f) → f.stop = true →
      Step s ({ s with cancelled := s.cancelled ++ [t] }.set i .idle)
  /-- lock seen (74-79) or compare-exchange failed (88): the word is loaded again -/
  | reload (s : St) (i t : Nat) (f : Word) : s.dead = false → s.threads[i]? = some (.loaded t f) → f.stop = false → f.lock = true ∨ s.word ≠ f →
      Step s (s.set i (.loaded t s.word))
  | cas (s : St) (i t : Nat) (f : Word) : s.dead = false → s.threads[i]? = some (.loaded t f) → f.stop = false → f.lock = false → s.word = f → f.cnt + 1 < cntMod →
      Step s ({ s with word := { f with lock := true, cnt := f.cnt + 1 } }.set i (.pushing t (decide (f.cnt = 0))))
  | push (s : St) (i t : Nat) (b : Bool) : s.dead = false → s.threads[i]? = some (.pushing t b) → Step s ({ s with queue := s.queue ++ [t] }.set i (.unlocking b))
  | unlock (s : St) (i : Nat) (b : Bool) : s.dead = false → s.threads[i]? = some (.unlocking b) →
      Step s ({ s with word := { s.word with lock := false } }.set i (if b then .adding else .idle))
  | addRef (s : St) (i : Nat) : s.dead = false → s.threads[i]? = some .adding → Step s ({ s with refs := s.refs + 1 }.set i .submit)
  | submit (s : St) (i : Nat) : s.dead = false → s.threads[i]? = some .submit → Step s ({ s with pool := s.pool + 1 }.set i .idle)
  | refused (s : St) (i : Nat) : s.dead = false → s.threads[i]? = some .submit → Step s (s.set i .failRel)
  | failRel (s : St) (i : Nat) : s.dead = false → s.threads[i]? = some .failRel → Step s (s.release.set i .failStop)
  | failStop (s : St) (i : Nat) : s.dead = false → s.threads[i]? = some .failStop → Step s ({ s with word := { s.word with stop := true } }.set i .failClean)
  | failCleanPop (s : St) (i t : Nat) (q : List Nat) : s.dead = false → s.threads[i]? = some .failClean → s.queue = t :: q →
      Step s { s with queue := q, cancelled := s.cancelled ++ [t] }
  | failCleanEnd (s : St) (i : Nat) : s.dead = false → s.threads[i]? = some .failClean → s.queue = [] → Step s ({ s with word := terminate }.set i .idle)
  /-- a thread of the pool takes a job -/
  | start (s : St) (i : Nat) : s.dead = false → s.threads[i]? = some .idle → 0 < s.pool → Step s ({ s with pool := s.pool - 1 }.set i .check)
  | check (s : St) (i : Nat) : s.dead = false → s.threads[i]? = some .check → Step s (s.set i (if s.refs > 1 then .pop else .tail))
  | pop (s : St) (i t : Nat) (q : List Nat) : s.dead = false → s.threads[i]? = some .pop → s.queue = t :: q → Step s ({ s with queue := q }.set i (.task t))
  | popNone (s : St) (i : Nat) : s.dead = false → s.threads[i]? = some .pop → s.queue = [] → Step s (s.set i .tail)
  | run (s : St) (i t : Nat) : s.dead = false → s.threads[i]? = some (.task t) → Step s ({ s with ran := s.ran ++ [t] }.set i (.run t))
  | done (s : St) (i t : Nat) : s.dead = false → s.threads[i]? = some (.run t) → Step s (s.set i .sub)
  | sub (s : St) (i : Nat) : s.dead = false → s.threads[i]? = some .sub →
      Step s ({ s with word := { s.word with cnt := (s.word.cnt + cntMod - 1) % cntMod } }.set i
        (if s.word.intr || decide ((s.word.cnt + cntMod - 1) % cntMod = 0) then .tail else .check))
  | tail (s : St) (i : Nat) : s.dead = false → s.threads[i]? = some .tail → Step s (s.set i (if s.refs > 1 then .tail2 else .clean))
  | tail2 (s : St) (i : Nat) : s.dead = false → s.threads[i]? = some .tail2 →
      Step s (s.set i (if s.word.intr || (s.word.stop && decide (s.word.cnt = 0)) then .clean else .rel))
  | cleanPop (s : St) (i t : Nat) (q : List Nat) : s.dead = false → s.threads[i]? = some .clean → s.queue = t :: q →
      Step s { s with queue := q, cancelled := s.cancelled ++ [t] }
  | cleanEnd (s : St) (i : Nat) : s.dead = false → s.threads[i]? = some .clean → s.queue = [] → Step s ({ s with word := terminate }.set i .rel)
  | rel (s : St) (i : Nat) : s.dead = false → s.threads[i]? = some .rel → Step s (s.release.set i .idle)

/-- executions: a user has created the runner -/
inductive Reach : St → Prop
  | init (n : Nat) : Reach { threads := List.replicate n .idle }
  | step {s s' : St} : Reach s → Step s s' → Reach s'

end Verif.Sequenced.Life
