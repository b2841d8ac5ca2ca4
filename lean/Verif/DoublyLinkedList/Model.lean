/-!
# Model of `DoublyLinkedList` (include/YY/Base/Containers/DoublyLinkedList.h)

Entries are identified by natural numbers (addresses); `none` is `nullptr`.  The heap maps each entry to its
two intrusive links.  A world contains the heap and any number of list objects.
A function result `none` means that the code dereferences a null pointer (undefined behaviour).

Simplifications: entries live as long as the world (the list never allocates or frees); `_DEBUG` checks
(lines 177-189) are not modelled; the `assert(false …)` in `Remove` (lines 204, 219) is modelled as in a
release build, i.e. the function returns early.
-/
namespace Verif.DoublyLinkedList

/-- `DoublyLinkedListEntryImpl` (DoublyLinkedList.h 14-19). -/
structure Node where
  prior : Option Nat := none
  next : Option Nat := none
deriving DecidableEq

abbrev Heap := Nat → Node

/-- A `DoublyLinkedList` object: `pFirst`, `pLast` (DoublyLinkedList.h 31-32, both null initially). -/
structure DList where
  first : Option Nat := none
  last : Option Nat := none
deriving DecidableEq

def Heap.set (h : Heap) (p : Nat) (n : Node) : Heap := fun q => if q = p then n else h q
/-- `p->pNext = v` -/
def Heap.setNext (h : Heap) (p : Nat) (v : Option Nat) : Heap := h.set p { h p with next := v }
/-- `p->pPrior = v` -/
def Heap.setPrior (h : Heap) (p : Nat) (v : Option Nat) : Heap := h.set p { h p with prior := v }

/-- `PushBack(EntryType*)` (DoublyLinkedList.h 58-72). -/
def pushBack (h : Heap) (l : DList) (e : Nat) : Heap × DList :=
  let h := h.setPrior e l.last
  let h := h.setNext e none
  match l.last with
  | some t => (h.setNext t (some e), { l with last := some e })
  | none => (h, { first := some e, last := some e })

/-- `PushBack(DoublyLinkedList&&)` for two different list objects (DoublyLinkedList.h 74-94);
returns the heap, this list and the emptied other list.  (`this == &_oList` is handled in `step`.)
`l.last->pNext` and `_oList.pFirst->pPrior` are guarded by null checks in the code. -/
def pushBackList (h : Heap) (l o : DList) : Heap × DList × DList :=
  match o.first with
  | none => (h, l, o)
  | some f =>
    match l.last with
    | some t =>
      let h := h.setNext t o.first
      let h := h.setPrior f l.last
      (h, { l with last := o.last }, {})
    | none => (h, { first := o.first, last := o.last }, {})

/-- `PopBack()` (DoublyLinkedList.h 96-115). -/
def popBack (h : Heap) (l : DList) : Heap × DList × Option Nat :=
  match l.last with
  | none => (h, l, none)
  | some r =>
    let newLast := (h r).prior
    match newLast with
    | some t =>
      let h := h.setNext t none
      let h := h.setPrior r none
      (h, { l with last := newLast }, some r)
    | none =>
      let h := h.setPrior r none
      (h, { first := none, last := none }, some r)

/-- `PopFront()` (DoublyLinkedList.h 117-135). -/
def popFront (h : Heap) (l : DList) : Heap × DList × Option Nat :=
  match l.first with
  | none => (h, l, none)
  | some r =>
    let newFirst := (h r).next
    match newFirst with
    | some f =>
      let h := h.setPrior f none
      let h := h.setNext r none
      (h, { l with first := newFirst }, some r)
    | none =>
      let h := h.setNext r none
      (h, { first := none, last := none }, some r)

/-- `Insert(_pWhere, _pEntry)` (DoublyLinkedList.h 137-152): `none` when
`_pEntry->pPrior->pNext` dereferences null. -/
def insertBefore (h : Heap) (l : DList) (w e : Nat) : Option (Heap × DList) :=
  let h := h.setPrior e (h w).prior
  let h := h.setNext e (some w)
  let h := h.setPrior w (some e)
  if l.first = some w then
    some (h, { l with first := some e })
  else
    match (h e).prior with
    | some p => some (h.setNext p (some e), l)
    | none => none

/-- `Insert(_pEntry)` (DoublyLinkedList.h 154-167). -/
def insertFront (h : Heap) (l : DList) (e : Nat) : Heap × DList :=
  let h := h.setPrior e none
  let h := h.setNext e l.first
  match l.first with
  | some f => (h.setPrior f (some e), { l with first := some e })
  | none => (h, { first := some e, last := some e })

/-- `Remove(_pEntry)` (DoublyLinkedList.h 179-229). -/
def remove (h : Heap) (l : DList) (e : Nat) : Heap × DList :=
  let prior := (h e).prior
  let h := h.setPrior e none
  let next := (h e).next
  let h := h.setNext e none
  match prior with
  | some p =>
    let h := h.setNext p next
    match next with
    | some n => (h.setPrior n prior, l)
    | none => if l.last ≠ some e then (h, l) else (h, { l with last := prior })
  | none =>
    if l.first ≠ some e then (h, l)
    else
      let l := { l with first := next }
      match next with
      | some n => (h.setPrior n prior, l)
      | none => if l.last ≠ some e then (h, l) else (h, { l with last := prior })

/-- `Flush()` (48-56) and the move constructor (36-42): the contents go to a new list object. -/
def flush (l : DList) : DList × DList := (l, {})

/-- `IsEmpty()` (228-231). -/
def isEmpty (l : DList) : Bool := l.first.isNone

/-- Walking the list forwards with `pNext` from `GetFirst()` (169-172), at most `fuel` entries. -/
def walkNext (h : Heap) : Nat → Option Nat → List Nat
  | 0, _ => []
  | _+1, none => []
  | n+1, some p => p :: walkNext h n (h p).next

/-- Walking the list backwards with `pPrior` from `GetLast()` (174-177), at most `fuel` entries. -/
def walkPrior (h : Heap) : Nat → Option Nat → List Nat
  | 0, _ => []
  | _+1, none => []
  | n+1, some p => p :: walkPrior h n (h p).prior

/-- The API calls on any number of list objects (identified by numbers). -/
inductive Op where
  | pushBack (l e : Nat)
  | pushBackList (l o : Nat)
  | popBack (l : Nat)
  | popFront (l : Nat)
  | insertBefore (l w e : Nat)
  | insertFront (l e : Nat)
  | remove (l e : Nat)
  /-- `dst` is a freshly constructed object receiving the contents of `src` -/
  | flush (dst src : Nat)

structure World where
  heap : Heap := fun _ => {}
  lists : Nat → DList := fun _ => {}

def setList {α} (f : Nat → α) (i : Nat) (v : α) : Nat → α := fun j => if j = i then v else f j

/-- One API call; the second component is the returned entry pointer, `none` overall = undefined behaviour. -/
def step (w : World) : Op → Option (World × Option Nat)
  | .pushBack l e =>
    let (h, d) := pushBack w.heap (w.lists l) e
    some ({ heap := h, lists := setList w.lists l d }, none)
  | .pushBackList l o =>
    if l = o then some (w, none) else
    let (h, d, o') := pushBackList w.heap (w.lists l) (w.lists o)
    some ({ heap := h, lists := setList (setList w.lists l d) o o' }, none)
  | .popBack l =>
    let (h, d, r) := popBack w.heap (w.lists l)
    some ({ heap := h, lists := setList w.lists l d }, r)
  | .popFront l =>
    let (h, d, r) := popFront w.heap (w.lists l)
    some ({ heap := h, lists := setList w.lists l d }, r)
  | .insertBefore l p e =>
    match insertBefore w.heap (w.lists l) p e with
    | some (h, d) => some ({ heap := h, lists := setList w.lists l d }, none)
    | none => none
  | .insertFront l e =>
    let (h, d) := insertFront w.heap (w.lists l) e
    some ({ heap := h, lists := setList w.lists l d }, none)
  | .remove l e =>
    let (h, d) := remove w.heap (w.lists l) e
    some ({ heap := h, lists := setList w.lists l d }, none)
  | .flush dst src =>
    let (d, s) := flush (w.lists src)
    some ({ w with lists := setList (setList w.lists src s) dst d }, none)

/-- A history of API calls with the returned values; `none` = undefined behaviour. -/
def run (w : World) : List Op → Option (World × List (Option Nat))
  | [] => some (w, [])
  | op :: ops =>
    match step w op with
    | none => none
    | some (w, r) =>
      match run w ops with
      | none => none
      | some (w, rs) => some (w, r :: rs)

end Verif.DoublyLinkedList
