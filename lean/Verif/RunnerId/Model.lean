import Verif.Common.Sum
/-!
# Model of the ids of task runners (src/YY/Base/Threading/TaskRunnerImpl.cpp 17-21, TaskRunner.cpp 163-166, include/YY/Base/Threading/TaskRunner.h 199, 229-236)

Any number of threads construct and destroy runners of any style. One step = the `Sync::Increment` of the static counter, the store into the member `uTaskRunnerId`, or the destruction of a runner.

Simplifications: the counter is one object of the process (one copy of the static variable: the library is linked once); constructors do not throw between the two steps. The number of the
increment (`k`, counted from 0) is kept beside each id as a ghost value: no step reads it.
-/
namespace Verif.RunnerId

/-- `uint32_t` -/
abbrev U32 := BitVec 32

inductive PC where
  | idle
  /-- `GenerateNewTaskRunnerId` has returned `id`, next the initialisation of `uTaskRunnerId` (TaskRunner.cpp 164) -/
  | got (k : Nat) (id : U32)

/-- a constructed runner: `uTaskRunnerId` (TaskRunner.h 199), what `GetId` returns (233-236) -/
structure Runner where
  k : Nat
  id : U32

structure St where
  /-- `s_TaskRunnerId` (TaskRunnerImpl.cpp 19) -/
  ctr : U32 := 0
  threads : List PC
  live : List Runner := []
  /-- increments so far (ghost) -/
  n : Nat := 0

inductive Step : St → St → Prop
  /-- `return Sync::Increment(&s_TaskRunnerId)` (TaskRunnerImpl.cpp 20): the new value -/
  | gen (s : St) (i : Nat) : s.threads[i]? = some .idle →
      Step s { s with ctr := s.ctr + 1, n := s.n + 1, threads := s.threads.set i (.got s.n (s.ctr + 1)) }
  /-- the constructor (TaskRunner.cpp 163-166) -/
  | store (s : St) (i k : Nat) (id : U32) : s.threads[i]? = some (.got k id) →
      Step s { s with threads := s.threads.set i .idle, live := s.live ++ [⟨k, id⟩] }
  | destroy (s : St) (j : Nat) : Step s { s with live := s.live.eraseIdx j }

inductive Reach : St → Prop
  | init (n : Nat) : Reach { threads := List.replicate n .idle }
  | step {s s' : St} : Reach s → Step s s' → Reach s'

end Verif.RunnerId
