/-!
# Model of `CriticalSection` (src/YY/Base/Sync/CriticalSection.cpp, include/YY/Base/Sync/CriticalSection.h)

The underlying `SRWLock` is trusted to be a correct exclusive lock: `Lock` blocks while it is held, `Unlock` releases it.
Threads are numbered from 1 (0 = "no owner", as in the code).  Each API call is one step: the only shared data are `uOwnerThreadId`
and `uLockRef`, which are written only by the thread that holds the SRW lock, and a thread finds its own id in
`uOwnerThreadId` only if it wrote it itself.
-/
namespace Verif.CriticalSection

structure State where
  /-- SRW lock is held -/
  held : Bool := false
  /-- `uOwnerThreadId` -/
  owner : Nat := 0
  /-- `uLockRef` -/
  ref : BitVec 32 := 0
deriving DecidableEq

/-- `Lock()` (CriticalSection.cpp 11-23); `none` = the caller stays blocked in this state. -/
def lock (s : State) (t : Nat) : Option State :=
  if s.owner = t then some { s with ref := s.ref + 1 }
  else if s.held then none
  else some { held := true, owner := t, ref := 0 }

/-- `TryLock()` (CriticalSection.cpp 25-42). -/
def tryLock (s : State) (t : Nat) : State × Bool :=
  if s.owner = t then ({ s with ref := s.ref + 1 }, true)
  else if s.held then (s, false)
  else ({ held := true, owner := t, ref := 0 }, true)

/-- `Unlock()` (CriticalSection.cpp 44-52). -/
def unlock (s : State) : State :=
  let s := { s with ref := s.ref - 1 }
  if s.ref = 0 then { s with owner := 0, held := false } else s

/-- A call that completes. -/
inductive Op where
  | lock (t : Nat)
  | tryLock (t : Nat)
  | unlock (t : Nat)
deriving DecidableEq

/-- `none`: the call does not complete in this state. The Boolean is the result of `TryLock`. -/
def step (s : State) : Op → Option (State × Bool)
  | .lock t => (lock s t).map (·, true)
  | .tryLock t => some (tryLock s t)
  | .unlock _ => some (unlock s, true)

/-- Run a history of completed calls; also tracks, for each thread, how many more successful acquisitions than releases it has made. -/
def run (s : State) (c : Nat → Nat) : List Op → Option (State × (Nat → Nat))
  | [] => some (s, c)
  | op :: ops =>
    match step s op with
    | none => none
    | some (s', ok) =>
      match op with
      | .lock t => run s' (fun u => if u = t then c t + 1 else c u) ops
      | .tryLock t => run s' (fun u => if u = t ∧ ok then c t + 1 else c u) ops
      | .unlock t => run s' (fun u => if u = t then c t - 1 else c u) ops

end Verif.CriticalSection
