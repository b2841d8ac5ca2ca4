/-!
Guards: `AutoLock` and `AutoSharedLock` (include/YY/Base/Sync/AutoLock.h 13-55) over `SRWLock` (include/YY/Base/Sync/SRWLock.h 14-60) and `AutoCleanupImpl` / `MakeAutoCleanup`
(include/YY/Base/Utils/AutoCleanup.h 34-64).

A program is a block-structured piece of code that declares guards; what it does besides is an opaque action. `return`, `throw`, `break` and `continue` out of the blocks are `exit`; the destructors of the guards
run in any case (C++). Any number of threads execute the events of such programs; a reader/writer lock is granted as `AcquireSRWLockExclusive/Shared` document. Simplifications: no fairness (a waiting
writer does not keep readers out), callbacks of `AutoCleanup` are single events and do not throw (a destructor is `noexcept`, so that a throwing one ends the program).
-/

namespace Verif.Guard

/-- a lock guard: lock number, exclusive or shared -/
structure Hold where
  l : Nat
  x : Bool
deriving DecidableEq, Repr

/-- what a thread does -/
inductive Ev where
  | act (n : Nat)
  /-- constructor of `AutoLock` (20-24) / `AutoSharedLock` (42-46) -/
  | acq (h : Hold)
  /-- destructor (29-32, 51-54) -/
  | rel (h : Hold)
  /-- an `AutoCleanup` is made (AutoCleanup.h 41-44, 61-64) -/
  | make (k : Nat)
  /-- the callback of an `AutoCleanup` is called by its destructor (54-57) -/
  | clean (k : Nat)
deriving DecidableEq, Repr

/-- block-structured code -/
inductive Prog where
  | act (n : Nat)
  | exit
  | seq (p q : Prog)
  | choice (p q : Prog)
  | loop (p : Prog)
  /-- `try { p } catch (...) { q }`, or a function called by the code -/
  | guarded (p q : Prog)
  /-- `{ AutoLock<SRWLock> g(lock); body }`, shared: `AutoSharedLock` -/
  | lock (h : Hold) (body : Prog)
  /-- `{ auto g = MakeAutoCleanup(...); body }` where `copies` copies of `g` are made. Copying is forbidden where `_HAS_CXX17` is 1 (AutoCleanup.h 46-50), otherwise the defaulted copy constructor calls
  nothing and each copy has the same destructor. -/
  | clean (k copies : Nat) (body : Prog)
deriving Repr

/-- `Runs p t n`: an execution of `p` with the events `t`; `n`: it reached its end (otherwise it was left by `exit`) -/
inductive Runs : Prog → List Ev → Bool → Prop
  | act (n) : Runs (.act n) [.act n] true
  | exit : Runs .exit [] false
  | seq {p q t u n} : Runs p t true → Runs q u n → Runs (.seq p q) (t ++ u) n
  | seqExit {p q t} : Runs p t false → Runs (.seq p q) t false
  | left {p q t n} : Runs p t n → Runs (.choice p q) t n
  | right {p q t n} : Runs q t n → Runs (.choice p q) t n
  | loopEnd {p} : Runs (.loop p) [] true
  | loop {p t u n} : Runs p t true → Runs (.loop p) u n → Runs (.loop p) (t ++ u) n
  | loopExit {p t} : Runs p t false → Runs (.loop p) t false
  | quiet {p q t} : Runs p t true → Runs (.guarded p q) t true
  | caught {p q t u n} : Runs p t false → Runs q u n → Runs (.guarded p q) (t ++ u) n
  | lock {h b t n} : Runs b t n → Runs (.lock h b) (.acq h :: t ++ [.rel h]) n
  | clean {k c b t n} : Runs b t n → Runs (.clean k c b) (.make k :: t ++ List.replicate (c + 1) (.clean k)) n

/-! ### threads -/

/-- a thread: the guards it holds and the events still to come -/
structure Th where
  held : List Hold := []
  rest : List Ev

/-- the whole program; `bad`: a lock was released by a thread that does not hold it (undefined in Windows) -/
structure St where
  ths : List Th
  bad : Bool := false

/-- the lock is free for this request: nobody has it, or (shared) nobody has it exclusively -/
def Free (ths : List Th) (h : Hold) : Prop :=
  ∀ th ∈ ths, ∀ g ∈ th.held, g.l = h.l → g.x = false ∧ h.x = false

inductive Step : St → St → Prop
  | plain (s) {i : Nat} {th e r} : s.ths[i]? = some th → th.rest = e :: r → (∀ h, e ≠ .acq h) → (∀ h, e ≠ .rel h) →
      Step s { s with ths := s.ths.set i { th with rest := r } }
  | acq (s) {i : Nat} {th h r} : s.ths[i]? = some th → th.rest = .acq h :: r → Free s.ths h →
      Step s { s with ths := s.ths.set i { held := h :: th.held, rest := r } }
  | rel (s) {i : Nat} {th h r} : s.ths[i]? = some th → th.rest = .rel h :: r → h ∈ th.held →
      Step s { s with ths := s.ths.set i { held := th.held.erase h, rest := r } }
  | relBad (s) {i : Nat} {th h r} : s.ths[i]? = some th → th.rest = .rel h :: r → h ∉ th.held →
      Step s { s with ths := s.ths.set i { th with rest := r }, bad := true }

inductive Steps : St → St → Prop
  | refl (s) : Steps s s
  | tail {s t u} : Steps s t → Step t u → Steps s u

/-- threads that are about to execute runs of these programs -/
def Starts (ps : List Prog) (s : St) : Prop :=
  s.bad = false ∧ s.ths.length = ps.length ∧ ∀ (i : Nat) th, s.ths[i]? = some th → ∃ p n, ps[i]? = some p ∧ th.held = [] ∧ Runs p th.rest n

/-- all threads are through -/
def Done (s : St) : Prop := ∀ th ∈ s.ths, th.rest = []

/-! ### the order of locks -/

/-- every lock is requested only while holding smaller ones (`b`: bound from outside) -/
def Prog.ordered (b : Nat) : Prog → Prop
  | .act _ | .exit => True
  | .seq p q | .choice p q | .guarded p q => p.ordered b ∧ q.ordered b
  | .loop p => p.ordered b
  | .lock h p => b ≤ h.l ∧ p.ordered (h.l + 1)
  | .clean _ _ p => p.ordered b

/-- no copies of cleanup guards, as C++17 guarantees -/
def Prog.noCopies : Prog → Prop
  | .act _ | .exit => True
  | .seq p q | .choice p q | .guarded p q => p.noCopies ∧ q.noCopies
  | .loop p => p.noCopies
  | .lock _ p => p.noCopies
  | .clean _ c p => c = 0 ∧ p.noCopies

end Verif.Guard
