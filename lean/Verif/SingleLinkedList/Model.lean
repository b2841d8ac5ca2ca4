/-!
# Model of `SingleLinkedList` (include/YY/Base/Containers/SingleLinkedList.h)

Entries are natural numbers (addresses), `none` is `nullptr`; the heap maps an entry to its `pNext` link
(`SingleLinkedListEntryImpl`, 13-16).  Any number of list objects share the heap.
-/
namespace Verif.SingleLinkedList

abbrev Heap := Nat → Option Nat

/-- A `SingleLinkedList` object (28-29). -/
structure SList where
  first : Option Nat := none
  last : Option Nat := none
deriving DecidableEq

/-- `p->pNext = v` -/
def Heap.setNext (h : Heap) (p : Nat) (v : Option Nat) : Heap := fun q => if q = p then v else h q

/-- `Pop()` (55-69). The popped entry keeps its `pNext`. -/
def pop (h : Heap) (l : SList) : SList × Option Nat :=
  match l.first with
  | none => (l, none)
  | some f =>
    match h f with
    | none => ({ first := none, last := none }, some f)
    | some n => ({ l with first := some n }, some f)

/-- `Push(EntryType*)` (71-85). -/
def push (h : Heap) (l : SList) (e : Nat) : Heap × SList :=
  let h := h.setNext e none
  match l.last with
  | some t => (h.setNext t (some e), { l with last := some e })
  | none => (h, { first := some e, last := some e })

/-- `Push(SingleLinkedList&&)` for two different objects (87-107). -/
def pushList (h : Heap) (l o : SList) : Heap × SList × SList :=
  if o.first = none then (h, l, o)
  else
    match l.last with
    | none => (h, { first := o.first, last := o.last }, {})
    | some t => (h.setNext t o.first, { l with last := o.last }, {})

/-- `IsEmpty()` (109-112). -/
def isEmpty (l : SList) : Bool := l.first.isNone

structure World where
  heap : Heap := fun _ => none
  lists : Nat → SList := fun _ => {}

def upd {α} (f : Nat → α) (i : Nat) (v : α) : Nat → α := fun j => if j = i then v else f j

inductive Op where
  | push (l e : Nat)
  | pushList (l o : Nat)
  | pop (l : Nat)
  /-- move construction (34-40) of the new object `dst` from `src` -/
  | move (dst src : Nat)

def step (w : World) : Op → World × Option Nat
  | .push l e => let (h, d) := push w.heap (w.lists l) e; ({ heap := h, lists := upd w.lists l d }, none)
  | .pushList l o =>
    if l = o then (w, none) else
    let (h, d, o') := pushList w.heap (w.lists l) (w.lists o)
    ({ heap := h, lists := upd (upd w.lists l d) o o' }, none)
  | .pop l => let (d, r) := pop w.heap (w.lists l); ({ w with lists := upd w.lists l d }, r)
  | .move dst src => ({ w with lists := upd (upd w.lists src {}) dst (w.lists src) }, none)

def run (w : World) : List Op → World × List (Option Nat)
  | [] => (w, [])
  | op :: ops => let (w, r) := step w op; let (w, rs) := run w ops; (w, r :: rs)

end Verif.SingleLinkedList
