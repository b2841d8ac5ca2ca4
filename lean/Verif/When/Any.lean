import Verif.Common.Sum
/-!
# Model of `WhenAny` (include/YY/Base/Threading/Task.h 292-371)

Any number of tasks, any number of threads.  Thread 0 is the one that calls `WhenAny`.  Every access to a shared field is one step.

Simplifications as for `WhenAll`: of a task only its being completed, its lock and whether the handler stands in its handler list are modelled; the tasks outlive the
operation; `Resolve` of the operation itself is one step (`Verif.Async`), as is a user's `Cancel` of it, and `RemoveCompletedHandler` (Async.h 368-375, under the lock).
-/
namespace Verif.When.Any
open Verif.Common

/-- a task given to `WhenAny` with the handler object of the same index (314-315) -/
structure Op where
  /-- `GetAsyncOperation()` is null -/
  null : Bool
  /-- the status is not `Started` any more -/
  done : Bool := false
  /-- `oSRWLock` is held by the thread that adds the handler -/
  locked : Bool := false
  /-- the handler stands in `oCompletedDelegate` -/
  listed : Bool := false
  /-- `pWhenAnyTaskAsyncOperation` of the handler is not null (300) -/
  hold : Bool := false
deriving DecidableEq

inductive PC where
  | idle
  /-- completed task `j`, next takes its lock and swaps its list (Async.h 383-387) -/
  | swap (j : Nat)
  /-- next calls `OnCompleted` of handler `j` -/
  | invoke (j : Nat)
  /-- in `OnCompleted`, the reference is moved out of the handler (305), next `Resolve(iIndex)` (306) -/
  | called (j : Nat)
  /-- next the destructor of the moved reference -/
  | release
  /-- loop of `InstallCompletedHandler` at index `k` (320) -/
  | loop (k : Nat)
  /-- handler `k` has got its reference (330-331), next `AddCompletedHandler` -/
  | add (k : Nat)
  /-- in `AddCompletedHandler`, lock held -/
  | addLocked (k : Nat)
  /-- there, status read as `Started` -/
  | addPush (k : Nat)
  /-- null task or handler refused, next `Resolve(k)` (325, 334) -/
  | res (k : Nat)
  /-- roll-back loop (345-359), `k` indices to go -/
  | roll (k : Nat)
  /-- `RemoveCompletedHandler` returned true, next `Reset` (357) -/
  | reset (k : Nat)
  /-- `InstallCompletedHandler` returns -/
  | fin
deriving DecidableEq

structure St where
  ops : List Op
  /-- the operation's own state: not completed / cancelled by the user / resolved with an index -/
  own : Option (Option Nat) := none
  ref : Nat := 1
  user : Nat := 1
  creating : Bool := true
  threads : List PC
  -- observations
  freed : Nat := 0
  /-- indices passed to `Resolve` -/
  resolves : List Nat := []
  /-- the index whose task refused the handler -/
  refused : Option Nat := none
  /-- number of handlers added -/
  prog : Nat := 0
  /-- `OnCompleted` of a handler without reference was called (null pointer) -/
  ub : Bool := false

/-- `Release` -/
def rel (ref freed : Nat) : Nat × Nat := (ref - 1, if ref = 1 then freed + 1 else freed)

inductive Step : St → St → Prop
  /-- some thread completes task `j` -/
  | win (s : St) (i j : Nat) (o : Op) (h : s.threads[i]? = some .idle) (ho : s.ops[j]? = some o) (hn : o.null = false) (hd : o.done = false) :
      Step s { s with ops := s.ops.set j { o with done := true }, threads := s.threads.set i (.swap j) }
  | swap (s : St) (i j : Nat) (o : Op) (h : s.threads[i]? = some (.swap j)) (ho : s.ops[j]? = some o) (hl : o.locked = false) :
      Step s { s with ops := s.ops.set j { o with listed := false }, threads := s.threads.set i (if o.listed then .invoke j else .idle) }
  | invoke (s : St) (i j : Nat) (o : Op) (h : s.threads[i]? = some (.invoke j)) (ho : s.ops[j]? = some o) :
      Step s { s with ops := s.ops.set j { o with hold := false }, ub := s.ub || !o.hold, threads := s.threads.set i (.called j) }
  | called (s : St) (i j : Nat) (h : s.threads[i]? = some (.called j)) :
      Step s { s with own := if s.own = none then some (some j) else s.own, resolves := j :: s.resolves, threads := s.threads.set i .release }
  | release (s : St) (i : Nat) (h : s.threads[i]? = some .release) :
      Step s { s with ref := (rel s.ref s.freed).1, freed := (rel s.ref s.freed).2, threads := s.threads.set i .idle }
  /-- 323-327 -/
  | loopNull (s : St) (i k : Nat) (o : Op) (h : s.threads[i]? = some (.loop k)) (ho : s.ops[k]? = some o) (hn : o.null = true) :
      Step s { s with threads := s.threads.set i (.res k) }
  /-- 329-331 -/
  | loopSet (s : St) (i k : Nat) (o : Op) (h : s.threads[i]? = some (.loop k)) (ho : s.ops[k]? = some o) (hn : o.null = false) :
      Step s { s with ops := s.ops.set k { o with hold := true }, ref := s.ref + 1, threads := s.threads.set i (.add k) }
  /-- 320, 339-342 -/
  | loopEnd (s : St) (i k : Nat) (h : s.threads[i]? = some (.loop k)) (hk : k = s.ops.length) :
      Step s { s with threads := s.threads.set i .fin }
  /-- Async.h 358-365 -/
  | addLock (s : St) (i k : Nat) (o : Op) (h : s.threads[i]? = some (.add k)) (ho : s.ops[k]? = some o) (hl : o.locked = false) :
      Step s { s with ops := s.ops.set k { o with locked := true }, threads := s.threads.set i (.addLocked k) }
  | addOk (s : St) (i k : Nat) (o : Op) (h : s.threads[i]? = some (.addLocked k)) (ho : s.ops[k]? = some o) (hd : o.done = false) :
      Step s { s with threads := s.threads.set i (.addPush k) }
  | addRefuse (s : St) (i k : Nat) (o : Op) (h : s.threads[i]? = some (.addLocked k)) (ho : s.ops[k]? = some o) (hd : o.done = true) :
      Step s { s with ops := s.ops.set k { o with locked := false }, refused := some k, threads := s.threads.set i (.res k) }
  | addPush (s : St) (i k : Nat) (o : Op) (h : s.threads[i]? = some (.addPush k)) (ho : s.ops[k]? = some o) :
      Step s { s with ops := s.ops.set k { o with locked := false, listed := true }, prog := k + 1, threads := s.threads.set i (.loop (k + 1)) }
  /-- 325, 334 -/
  | res (s : St) (i k : Nat) (h : s.threads[i]? = some (.res k)) :
      Step s { s with own := if s.own = none then some (some k) else s.own, resolves := k :: s.resolves, threads := s.threads.set i (.roll k) }
  /-- 347-352 -/
  | rollNull (s : St) (i k : Nat) (o : Op) (h : s.threads[i]? = some (.roll (k + 1))) (ho : s.ops[k]? = some o) (hn : o.null = true) :
      Step s { s with threads := s.threads.set i (.roll k) }
  /-- 355, removed -/
  | rollRemove (s : St) (i k : Nat) (o : Op) (h : s.threads[i]? = some (.roll (k + 1))) (ho : s.ops[k]? = some o) (hn : o.null = false) (hl : o.locked = false)
      (hli : o.listed = true) :
      Step s { s with ops := s.ops.set k { o with listed := false }, threads := s.threads.set i (.reset k) }
  /-- 355, not in the list -/
  | rollSkip (s : St) (i k : Nat) (o : Op) (h : s.threads[i]? = some (.roll (k + 1))) (ho : s.ops[k]? = some o) (hn : o.null = false) (hl : o.locked = false)
      (hli : o.listed = false) :
      Step s { s with threads := s.threads.set i (.roll k) }
  /-- 357 -/
  | reset (s : St) (i k : Nat) (o : Op) (h : s.threads[i]? = some (.reset k)) (ho : s.ops[k]? = some o) (hh : o.hold = true) :
      Step s { s with ops := s.ops.set k { o with hold := false }, ref := (rel s.ref s.freed).1, freed := (rel s.ref s.freed).2, threads := s.threads.set i (.roll k) }
  /-- 357 with a null pointer: nothing happens -/
  | resetNull (s : St) (i k : Nat) (o : Op) (h : s.threads[i]? = some (.reset k)) (ho : s.ops[k]? = some o) (hh : o.hold = false) :
      Step s { s with threads := s.threads.set i (.roll k) }
  | rollEnd (s : St) (i : Nat) (h : s.threads[i]? = some (.roll 0)) :
      Step s { s with threads := s.threads.set i .fin }
  | fin (s : St) (i : Nat) (h : s.threads[i]? = some .fin) :
      Step s { s with creating := false, threads := s.threads.set i .idle }
  | cancel (s : St) (hu : s.user ≠ 0) (hc : s.creating = false) (h0 : s.own = none) : Step s { s with own := some none }
  | copy (s : St) (hu : s.user ≠ 0) (hc : s.creating = false) : Step s { s with user := s.user + 1, ref := s.ref + 1 }
  | drop (s : St) (hu : s.user ≠ 0) (hc : s.creating = false) :
      Step s { s with user := s.user - 1, ref := (rel s.ref s.freed).1, freed := (rel s.ref s.freed).2 }

/-- `WhenAny` of at least one task is called -/
def Init (s : St) : Prop := ∃ ns n, ns ≠ [] ∧ s = { ops := ns.map fun b => { null := b }, threads := .loop 0 :: List.replicate n .idle }

inductive Reach : St → Prop
  | init (s : St) (h : Init s) : Reach s
  | step (s s' : St) (h : Reach s) (hs : Step s s') : Reach s'

end Verif.When.Any
