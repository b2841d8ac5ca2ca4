/-!
# Model of the current task runner of a thread

`g_pTaskRunnerWeak` (src/YY/Base/Threading/TaskRunnerImpl.cpp 15) and everything that writes or reads it: TaskRunner.cpp 168-171, 266-273, 394-508, SequencedTaskRunnerImpl.cpp 106-156,
ParallelTaskRunnerImpl.hpp 308-362, ThreadTaskRunnerImpl.cpp 382-432, ThreadTaskRunnerProxyImpl.h 323-360, ThreadPool.Windows.h 35-55.

Any number of threads and runners. A thread is its stack of calls (the newest first). One step = one call or return, or one change of an owner. Simplifications: of a runner only its class, its owners
and its work items are kept (queues, counters and stop bits are C44-C48, C63-C65, C69); a loop may call user code and end at any moment; a strong reference is owned by the user's code (`own`), by a
work item waiting in the pool (`work`, the `AddRef` of `PostTaskInternal`) or by a call (`Frame.holds`), and `TryAddRef` succeeds exactly for an object with such an owner (C28); `TaskRunnerProc` may be
called whenever a thread runs user code or a message loop, window or not; memory is not exhausted.
-/
namespace Verif.Current

/-- the classes of runners (TaskRunner.h 191, 436, 457, 523; SequencedTaskRunnerImpl.h 14; ThreadTaskRunnerImpl.h 22-32; ThreadTaskRunnerProxyImpl.h 16-18; ParallelTaskRunnerImpl.hpp 129) -/
inductive Kind where
  | seq | par | thr | proxy
deriving DecidableEq

/-- `TaskRunnerStyle` (TaskRunner.h 26-33) -/
def sequencedBit : BitVec 32 := 1#32
def fixedBit : BitVec 32 := 2#32

/-- `HasFlags` (YY.h 99-103): the number is converted to `bool` -/
def hasFlags (a b : BitVec 32) : Bool := (a &&& b) != 0#32

/-- `GetStyle` (SequencedTaskRunnerImpl.cpp 27-30, ParallelTaskRunnerImpl.hpp 187-190, ThreadTaskRunnerImpl.cpp 28-31, ThreadTaskRunnerProxyImpl.h 95-98) -/
def style : Kind → BitVec 32
  | .seq => sequencedBit
  | .par => 0#32
  | .thr => fixedBit ||| sequencedBit
  | .proxy => fixedBit ||| sequencedBit

/-- a call on a thread's stack -/
inductive Frame where
  /-- `ExecuteTaskRunner` of a sequenced or parallel runner (SequencedTaskRunnerImpl.cpp 128-155, ParallelTaskRunnerImpl.hpp 329-362), called by the pool, which holds a reference until it returns -/
  | exec (r : Nat)
  /-- the rest of its `operator()`, `CleanupTaskQueue` (113-118; 318-323) -/
  | tidy (r : Nat)
  /-- `ThreadTaskRunnerImpl::operator()` with its loop (382-406), called by the pool, which holds a reference -/
  | main (r : Nat)
  /-- `ThreadTaskRunner::RunUIMessageLoop` (TaskRunner.cpp 454-476) with its `RefPtr` -/
  | loop (r : Nat)
  /-- `TaskRunnerProc` (ThreadTaskRunnerProxyImpl.h 323-357) with its `RefPtr` -/
  | proc (r : Nat)
  /-- user code called by runner `r`: a task, a timer, a wait callback, a message handler -/
  | call (r : Nat)
  /-- user code called from `CleanupTaskQueue`: the destructor of a captured object -/
  | dtor
deriving DecidableEq

/-- The reference held during a call. For a parallel runner it is the one reference that all its executors share (ParallelTaskRunnerImpl.hpp 270-273, 384-388; that it exists during `ExecuteTaskRunner`
is C95). A sequenced runner's executor keeps its reference during `tidy` as well, a parallel one does not; no weak pointer of a thread depends on it, it is left out. -/
def Frame.holds : Frame → Nat → Prop
  | .exec r, x => r = x
  | .tidy _, _ => False
  | .main r, x => r = x
  | .loop r, x => r = x
  | .proc r, x => r = x
  | .call _, _ => False
  | .dtor, _ => False

structure St where
  /-- runners 0 … made-1 were made -/
  made : Nat := 0
  kind : Nat → Kind := fun _ => .seq
  /-- strong references owned by user code -/
  own : Nat → Nat := fun _ => 0
  /-- work items in the pool -/
  work : Nat → Nat := fun _ => 0
  /-- `g_pTaskRunnerWeak` of each thread; a weak pointer keeps the memory, so the number of a destroyed runner is not used again -/
  cur : Nat → Option Nat := fun _ => none
  stk : Nat → List Frame := fun _ => []

def upd {α : Type} (f : Nat → α) (i : Nat) (x : α) : Nat → α := fun j => if j = i then x else f j

/-- the runner has an owner -/
def Alive (s : St) (r : Nat) : Prop := 0 < s.own r ∨ 0 < s.work r ∨ ∃ t f, f ∈ s.stk t ∧ f.holds r

/-- user code runs on the thread: outside of all calls (not on a thread of the pool), or in a call made by a runner -/
def User (pool : Nat → Bool) (t : Nat) : List Frame → Prop
  | [] => pool t = false
  | .call _ :: _ => True
  | .dtor :: _ => True
  | _ :: _ => False

/-- a call that runs a loop and may call user code of runner `r` (tasks: SequencedTaskRunnerImpl.cpp 143, ParallelTaskRunnerImpl.hpp 349, ThreadTaskRunnerImpl.cpp 154, 238; proxy: ExecuteTaskRunner) -/
def Frame.calls : Frame → Nat → Prop
  | .exec r, x => r = x
  | .main r, x => r = x
  | .loop r, x => r = x
  | .proc r, x => r = x
  | _, _ => False

/-- message loops dispatch messages (ThreadTaskRunnerImpl.cpp 98-99, 216-217) -/
def Frame.pumps : Frame → Prop
  | .main _ => True
  | .loop _ => True
  | _ => False

open Classical in
/-- `g_pTaskRunnerWeak.Get()` (WeakPtr.h 72-83), `TaskRunner::GetCurrent` (TaskRunner.cpp 168-171) -/
noncomputable def get (s : St) (t : Nat) : Option Nat :=
  match s.cur t with
  | none => none
  | some r => if Alive s r then some r else none

/-- a new runner -/
def St.new (s : St) (k : Kind) (own work : Nat) : St :=
  { s with made := s.made + 1, kind := upd s.kind s.made k, own := upd s.own s.made own, work := upd s.work s.made work }

inductive Step (pool : Nat → Bool) : St → St → Prop
  /-- `SequencedTaskRunner::Create`, `ParallelTaskRunner::Create` (TaskRunner.cpp 275-278, 504-507) -/
  | create (s : St) (k : Kind) : k = .seq ∨ k = .par → Step pool s (s.new k 1 0)
  /-- `ThreadTaskRunner::Create` (399-411): the pool takes the work item -/
  | createThread (s : St) : Step pool s (s.new .thr 1 1)
  /-- the pool refuses it: null is returned and the runner destroyed (405-408) -/
  | createFailed (s : St) : Step pool s (s.new .thr 0 0)
  /-- `BindCurrentThread`, `BindCurrentThreadForProxyMode` (425-452) where `Get()` gives null; otherwise they change nothing. (A failed `Init` leaves the thread as it was.) -/
  | bind (s : St) (t : Nat) (k : Kind) : User pool t (s.stk t) → get s t = none → k = .thr ∨ k = .proxy →
      Step pool s { s.new k 1 0 with cur := upd s.cur t (some s.made) }
  /-- user code copies a reference it has, or keeps the one `GetCurrent` gave it -/
  | copy (s : St) (r : Nat) : 0 < s.own r → Step pool s { s with own := upd s.own r (s.own r + 1) }
  | keep (s : St) (t r : Nat) : User pool t (s.stk t) → get s t = some r → Step pool s { s with own := upd s.own r (s.own r + 1) }
  /-- user code gives up a reference -/
  | drop (s : St) (r : Nat) : 0 < s.own r → Step pool s { s with own := upd s.own r (s.own r - 1) }
  /-- a post asks the pool for an executor (SequencedTaskRunnerImpl.cpp 94, ParallelTaskRunnerImpl.hpp 258-286) -/
  | submit (s : St) (r : Nat) : Alive s r → s.kind r = .seq ∨ s.kind r = .par → Step pool s { s with work := upd s.work r (s.work r + 1) }
  /-- the pool calls `operator()`: `g_pTaskRunnerWeak = this` (130; 331) -/
  | exec (s : St) (t r : Nat) : pool t = true → s.stk t = [] → 0 < s.work r → s.kind r = .seq ∨ s.kind r = .par →
      Step pool s { s with work := upd s.work r (s.work r - 1), cur := upd s.cur t (some r), stk := upd s.stk t [.exec r] }
  /-- the same for a thread runner (390) -/
  | main (s : St) (t r : Nat) : pool t = true → s.stk t = [] → 0 < s.work r → s.kind r = .thr →
      Step pool s { s with work := upd s.work r (s.work r - 1), cur := upd s.cur t (some r), stk := upd s.stk t [.main r] }
  /-- a loop calls user code -/
  | call (s : St) (t r : Nat) (f : Frame) (l : List Frame) : s.stk t = f :: l → f.calls r → Step pool s { s with stk := upd s.stk t (.call r :: f :: l) }
  /-- user code returns -/
  | ret (s : St) (t r : Nat) (l : List Frame) : s.stk t = .call r :: l → Step pool s { s with stk := upd s.stk t l }
  /-- end of `ExecuteTaskRunner`: `g_pTaskRunnerWeak = nullptr` (153; 360) -/
  | leave (s : St) (t r : Nat) (l : List Frame) : s.stk t = .exec r :: l → Step pool s { s with cur := upd s.cur t none, stk := upd s.stk t (.tidy r :: l) }
  /-- `CleanupTaskQueue` destroys a task -/
  | dtor (s : St) (t r : Nat) (l : List Frame) : s.stk t = .tidy r :: l → Step pool s { s with stk := upd s.stk t (.dtor :: .tidy r :: l) }
  | dtorEnd (s : St) (t : Nat) (l : List Frame) : s.stk t = .dtor :: l → Step pool s { s with stk := upd s.stk t l }
  /-- end of `operator()`, the pool releases its reference (ThreadPool.Windows.h 43) -/
  | tidyEnd (s : St) (t r : Nat) (l : List Frame) : s.stk t = .tidy r :: l → Step pool s { s with stk := upd s.stk t l }
  /-- end of `ThreadTaskRunnerImpl::operator()`: `g_pTaskRunnerWeak = nullptr` (400) -/
  | mainEnd (s : St) (t r : Nat) (l : List Frame) : s.stk t = .main r :: l → Step pool s { s with cur := upd s.cur t none, stk := upd s.stk t l }
  /-- `RunUIMessageLoop` (454-476); without runner or without `FixedThread` it throws and changes nothing -/
  | loop (s : St) (t r : Nat) : User pool t (s.stk t) → get s t = some r → hasFlags (style (s.kind r)) fixedBit = true →
      Step pool s { s with stk := upd s.stk t (.loop r :: s.stk t) }
  | loopEnd (s : St) (t r : Nat) (l : List Frame) : s.stk t = .loop r :: l → Step pool s { s with stk := upd s.stk t l }
  /-- `TaskRunnerProc` (330-340): the current runner, if `dynamic_cast` finds a proxy -/
  | proc (s : St) (t r : Nat) : (User pool t (s.stk t) ∨ ∃ f l, s.stk t = f :: l ∧ f.pumps) → get s t = some r → s.kind r = .proxy →
      Step pool s { s with stk := upd s.stk t (.proc r :: s.stk t) }
  | procEnd (s : St) (t r : Nat) (l : List Frame) : s.stk t = .proc r :: l → Step pool s { s with stk := upd s.stk t l }

/-- executions from the start of the process -/
inductive Reach (pool : Nat → Bool) : St → Prop
  | start : Reach pool {}
  | step {s s' : St} : Reach pool s → Step pool s s' → Reach pool s'

inductive Steps (pool : Nat → Bool) : St → St → Prop
  | refl (s : St) : Steps pool s s
  | step {s s' s'' : St} : Steps pool s s' → Step pool s' s'' → Steps pool s s''

/-- `SequencedTaskRunner::GetCurrent` (TaskRunner.cpp 266-273) -/
noncomputable def seqCurrent (s : St) (t : Nat) : Option Nat :=
  match get s t with
  | none => none
  | some r => if hasFlags (style (s.kind r)) sequencedBit = false then none else some r

/-- `ThreadTaskRunner::GetCurrent` (414-423) -/
noncomputable def thrCurrent (s : St) (t : Nat) : Option Nat :=
  match get s t with
  | none => none
  | some r => if hasFlags (style (s.kind r)) fixedBit = false then none else some r

/-- `ParallelTaskRunner::GetCurrent` (495-502) -/
noncomputable def parCurrent (s : St) (t : Nat) : Option Nat :=
  match get s t with
  | none => none
  | some r => if style (s.kind r) ≠ 0#32 then none else some r

end Verif.Current
