/-!
# Model of `HashSet<_Key, _uBuckets>` (include/YY/Base/Containers/HashSet.h)

Keys are pointer values (`Nat`, 0 is `nullptr`); `n` is `_uBuckets`.  The memory holds the entries by address; reading, writing or freeing an
address without an entry is undefined behaviour (`none`).  Loops carry the number of allocations made so far as a bound on their length; running out of it
(an endless loop) is also `none`.
-/
namespace Verif.HashSet

/-- `HashSetEntry` (18-22) -/
structure Entry where
  next : Option Nat
  data : Nat

abbrev Mem := Nat → Option Entry

structure St where
  mem : Mem
  /-- `pBuckets` (24) -/
  buckets : Nat → Option Nat
  /-- number of allocations so far (ghost) -/
  allocs : Nat

/-- constructor (27-30) -/
def init : St := ⟨fun _ => none, fun _ => none, 0⟩

def upd {α : Type} (f : Nat → α) (i : Nat) (v : α) : Nat → α := fun j => if j = i then v else f j

/-- the loop of `Insert` (64-68): is the key in the chain? -/
def search (m : Mem) (key : Nat) : Nat → Option Nat → Option Bool
  | _, none => some false
  | 0, some _ => none
  | fuel + 1, some a =>
    match m a with
    | none => none
    | some e => if e.data = key then some true else search m key fuel e.next

inductive Res where
  | ok | false_ | oom
  | key (k : Nat)
deriving DecidableEq

/-- `Insert` (60-81); `al` is the answer of the allocator -/
def insert (n : Nat) (s : St) (key : Nat) (al : Option Nat) : Option (St × Res) :=
  let i := key % n
  match search s.mem key s.allocs (s.buckets i) with
  | none => none
  | some true => some (s, .false_)
  | some false =>
    match al with
    | none => some (s, .oom)
    | some a => some ({ mem := upd s.mem a (some ⟨s.buckets i, key⟩), buckets := upd s.buckets i (some a), allocs := s.allocs + 1 }, .ok)

/-- the loop of `Remove` (88-109) -/
def removeLoop (s : St) (i key : Nat) : Nat → Option Nat → Option Nat → Option (St × Res)
  | _, _, none => some (s, .false_)
  | 0, _, some _ => none
  | fuel + 1, last, some a =>
    match s.mem a with
    | none => none
    | some e =>
      if e.data = key then
        match last with
        | some l =>
          match s.mem l with
          | none => none
          | some le => some ({ s with mem := upd (upd s.mem l (some { le with next := e.next })) a none }, .ok)
        | none => some ({ s with buckets := upd s.buckets i e.next, mem := upd s.mem a none }, .ok)
      else removeLoop s i key fuel (some a) e.next

/-- `Remove` (83-112) -/
def remove (n : Nat) (s : St) (key : Nat) : Option (St × Res) := removeLoop s (key % n) key s.allocs none (s.buckets (key % n))

/-- the loop of `Pop` (47-55) over the buckets `i, …, i + k - 1`; the entry is not freed -/
def popLoop (s : St) : Nat → Nat → Option (St × Res)
  | 0, _ => some (s, .key 0)
  | k + 1, i =>
    match s.buckets i with
    | some a =>
      match s.mem a with
      | none => none
      | some e => some ({ s with buckets := upd s.buckets i e.next }, .key e.data)
    | none => popLoop s k (i + 1)

/-- `Pop` (45-58) -/
def pop (n : Nat) (s : St) : Option (St × Res) := popLoop s n 0

/-- the inner loop of the destructor (36-41) -/
def freeChain : Nat → Mem → Option Nat → Option Mem
  | _, m, none => some m
  | 0, _, some _ => none
  | fuel + 1, m, some a =>
    match m a with
    | none => none
    | some e => freeChain fuel (upd m a none) e.next

/-- `~HashSet` (32-43) over the buckets `i, …, i + k - 1` -/
def destroyLoop (s : St) : Nat → Nat → Mem → Option Mem
  | 0, _, m => some m
  | k + 1, i, m =>
    match freeChain s.allocs m (s.buckets i) with
    | none => none
    | some m => destroyLoop s k (i + 1) m

def destroy (n : Nat) (s : St) : Option Mem := destroyLoop s n 0 s.mem

inductive Op where
  | insert (key : Nat) (al : Option Nat)
  | remove (key : Nat)
  | pop

def step (n : Nat) (s : St) : Op → Option (St × Res)
  | .insert k al => insert n s k al
  | .remove k => remove n s k
  | .pop => pop n s

/-- the allocator returns an address that is not in use -/
def Allowed (s : St) : Op → Prop
  | .insert _ (some a) => s.mem a = none
  | _ => True

/-- the states reachable by a history of calls and their results -/
inductive Reach (n : Nat) : List (Op × Res) → St → Prop
  | init : Reach n [] init
  | step {h s s' op r} : Reach n h s → Allowed s op → step n s op = some (s', r) → Reach n (h ++ [(op, r)]) s'

end Verif.HashSet
