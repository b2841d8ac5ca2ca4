/-!
# Model of `InterlockedSingleLinkedList` (include/YY/Base/Sync/InterlockedSingleLinkedList.h)

Any number of pushing threads (`Nat`-indexed) and one consumer.  Every access to `pHead` and to a `pNext` field is one atomic step (sequentially consistent memory);
the steps of all threads interleave arbitrarily.  Entries are owned by somebody at every moment; the owner field is ghost state.  Clients may allocate, free and
overwrite entries they own, in particular push an entry again after it was obtained (the ABA situation).
-/
namespace Verif.Treiber

inductive Owner where
  | dead | out | pusher (t : Nat) | list | consumer
deriving DecidableEq

/-- `Push` (56-72): before the store to `_pEntryEnd->pNext` / before the compare-exchange -/
inductive PPC where
  | idle
  | store (seg : List Nat) (h : Option Nat)
  | cas (seg : List Nat) (h : Option Nat)
deriving DecidableEq

/-- `Pop` (92-113): before reading `_pEntry->pNext`, before the compare-exchange, before clearing `pNext` -/
inductive CPC where
  | idle
  | read (p : Nat)
  | cas (p : Nat) (nx : Option Nat)
  | clear (p : Nat)
deriving DecidableEq

/-- the visible events, logged at the step that makes them take effect -/
inductive Ev where
  | push (seg : List Nat)
  | pop (e : Nat)
  | popNull
  | flush (l : List Nat)

structure St where
  head : Option Nat
  next : Nat → Option Nat
  own : Nat → Owner
  push : Nat → PPC
  cons : CPC
  log : List Ev

def init : St := ⟨none, fun _ => none, fun _ => .dead, fun _ => .idle, .idle, []⟩

def upd {α : Type} (f : Nat → α) (i : Nat) (v : α) : Nat → α := fun j => if j = i then v else f j

/-- assign an owner to all entries of a list -/
def give (own : Nat → Owner) (l : List Nat) (o : Owner) : Nat → Owner := fun e => if e ∈ l then o else own e

/-- the entries of `seg` are linked one after the other (the caller's obligation for `Push(begin, end)`) -/
def Linked (next : Nat → Option Nat) : List Nat → Prop
  | a :: b :: l => next a = some b ∧ Linked next (b :: l)
  | _ => True

/-- walking from pointer `p` along `pNext` visits exactly `l` and then reads null -/
def Walk (next : Nat → Option Nat) : Option Nat → List Nat → Prop
  | p, [] => p = none
  | p, e :: l => p = some e ∧ Walk next (next e) l

inductive Step (s : St) : St → Prop
  /-- the client creates an entry -/
  | alloc (e : Nat) (v : Option Nat) : s.own e = .dead → Step s { s with own := upd s.own e .out, next := upd s.next e v }
  /-- the client destroys an entry that is not handed over -/
  | free (e : Nat) : s.own e = .out → Step s { s with own := upd s.own e .dead }
  /-- the client writes to an entry that is not handed over -/
  | write (e : Nat) (v : Option Nat) : s.own e = .out → Step s { s with next := upd s.next e v }
  /-- `Push` called; reads `pHead` (58) -/
  | start (t : Nat) (seg : List Nat) : s.push t = .idle → seg ≠ [] → seg.Nodup → (∀ e ∈ seg, s.own e = .out) → Linked s.next seg →
      Step s { s with push := upd s.push t (.store seg s.head), own := give s.own seg (.pusher t) }
  /-- `_pEntryEnd->pNext = _pEntry` (61) -/
  | store (t : Nat) (seg : List Nat) (h : Option Nat) (e : Nat) : s.push t = .store seg h → seg.getLast? = some e →
      Step s { s with push := upd s.push t (.cas seg h), next := upd s.next e h }
  /-- successful compare-exchange of `Push` (63) -/
  | casOk (t : Nat) (seg : List Nat) (h : Option Nat) : s.push t = .cas seg h → s.head = h →
      Step s { s with push := upd s.push t .idle, head := seg.head?, own := give s.own seg .list, log := s.log ++ [.push seg] }
  /-- failed compare-exchange of `Push` (63-69) -/
  | casFail (t : Nat) (seg : List Nat) (h : Option Nat) : s.push t = .cas seg h → s.head ≠ h →
      Step s { s with push := upd s.push t (.store seg s.head) }
  /-- `Pop` reads a null head (94-98) -/
  | popNull : s.cons = .idle → s.head = none → Step s { s with log := s.log ++ [.popNull] }
  /-- `Pop` reads a non-null head (94) -/
  | popRead (p : Nat) : s.cons = .idle → s.head = some p → Step s { s with cons := .read p }
  /-- reads `_pEntry->pNext` (101) -/
  | popNext (p : Nat) : s.cons = .read p → Step s { s with cons := .cas p (s.next p) }
  /-- successful compare-exchange of `Pop` (101-102) -/
  | popOk (p : Nat) (nx : Option Nat) : s.cons = .cas p nx → s.head = some p →
      Step s { s with cons := .clear p, head := nx, own := upd s.own p .consumer, log := s.log ++ [.pop p] }
  /-- failed compare-exchange of `Pop`, new head non-null (109) -/
  | popFail (p : Nat) (nx : Option Nat) (q : Nat) : s.cons = .cas p nx → s.head = some q → q ≠ p → Step s { s with cons := .read q }
  /-- failed compare-exchange of `Pop`, new head null (109, 97) -/
  | popFailNull (p : Nat) (nx : Option Nat) : s.cons = .cas p nx → s.head = none → Step s { s with cons := .idle, log := s.log ++ [.popNull] }
  /-- `_pEntry->pNext = nullptr` and return (104, 112) -/
  | clear (p : Nat) : s.cons = .clear p → Step s { s with cons := .idle, next := upd s.next p none, own := upd s.own p .out }
  /-- `Flush` (120-123); the consumer obtains the entries reachable from the old head -/
  | flush (l : List Nat) : s.cons = .idle → Walk s.next s.head l → Step s { s with head := none, own := give s.own l .out, log := s.log ++ [.flush l] }

inductive Reach : St → Prop
  | init : Reach init
  | step {s s'} : Reach s → Step s s' → Reach s'

end Verif.Treiber
