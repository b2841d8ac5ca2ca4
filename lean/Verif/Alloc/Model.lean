/-!
The memory functions of include/YY/Base/Memory/Alloc.h (16-88): `Alloc`, `AllocAndZero`, `ReAlloc`, `ReAllocAndZero` (both versions), `Free`, `New`, `NewAndZero`, `Delete`.

The heap is a list of blocks that is never shortened; a freed block is `none`. A byte is `none` while it is indeterminate. `ok` is the answer of the C runtime to a request. Undefined behaviour is the
outcome `ub`. `realloc(p, 0)` frees the block and returns null, as the C runtimes of Microsoft and GNU do. Sizes do not overflow.
-/

namespace Verif.Alloc

abbrev Cell := Option (BitVec 8)
abbrev Heap := List (Option (List Cell))

/-- a pointer: block and offset; `none` is the null pointer -/
structure Ptr where
  blk : Nat
  off : Nat
deriving DecidableEq

inductive Res (β : Type) where
  | ub
  | ok (h : Heap) (v : β)
deriving DecidableEq

/-- `malloc` -/
def malloc (h : Heap) (n : Nat) (ok : Bool) : Res (Option Ptr) :=
  if ok then .ok (h ++ [some (List.replicate n none)]) (some ⟨h.length, 0⟩) else .ok h none

/-- `calloc(1, n)` -/
def calloc (h : Heap) (n : Nat) (ok : Bool) : Res (Option Ptr) :=
  if ok then .ok (h ++ [some (List.replicate n (some 0))]) (some ⟨h.length, 0⟩) else .ok h none

/-- `free` -/
def free (h : Heap) : Option Ptr → Res Unit
  | none => .ok h ()
  | some p =>
    match h[p.blk]? with
    | some (some _) => if p.off = 0 then .ok (h.set p.blk none) () else .ub
    | _ => .ub

/-- the bytes after a change of size: the old ones as far as they fit, the others are `fill` -/
def resized (c : List Cell) (n : Nat) (fill : Cell) : List Cell := c.take n ++ List.replicate (n - c.length) fill

/-- `realloc` / `_recalloc` with the value of the new bytes -/
def reallocWith (h : Heap) (p : Option Ptr) (n : Nat) (fill : Cell) (ok : Bool) : Res (Option Ptr) :=
  match p with
  | none => if ok then .ok (h ++ [some (List.replicate n fill)]) (some ⟨h.length, 0⟩) else .ok h none
  | some p =>
    match h[p.blk]? with
    | some (some c) =>
      if p.off ≠ 0 then .ub
      else if n = 0 then .ok (h.set p.blk none) none
      else if ok then .ok (h.set p.blk none ++ [some (resized c n fill)]) (some ⟨h.length, 0⟩)
      else .ok h none
    | _ => .ub

/-- `memset(p, 0, n)` -/
def memset0 (h : Heap) (p : Ptr) (n : Nat) : Res Unit :=
  match h[p.blk]? with
  | some (some c) => if p.off + n ≤ c.length then .ok (h.set p.blk (some (c.take p.off ++ List.replicate n (some 0) ++ c.drop (p.off + n)))) () else .ub
  | _ => .ub

/-- `Alloc` (16-19) -/
def alloc (h : Heap) (n : Nat) (ok : Bool) : Res (Option Ptr) := malloc h n ok

/-- `AllocAndZero` (23-26) -/
def allocZero (h : Heap) (n : Nat) (ok : Bool) : Res (Option Ptr) := calloc h n ok

/-- `ReAlloc` (30-33) -/
def reAlloc (h : Heap) (p : Option Ptr) (n : Nat) (ok : Bool) : Res (Option Ptr) := reallocWith h p n none ok

/-- `ReAllocAndZero` with `_MSC_VER` (40) -/
def reAllocZeroMs (h : Heap) (p : Option Ptr) (n : Nat) (ok : Bool) : Res (Option Ptr) := reallocWith h p n (some 0) ok

/-- `ReAllocAndZero` elsewhere (42-47) -/
def reAllocZero (h : Heap) (p : Option Ptr) (n : Nat) (ok : Bool) : Res (Option Ptr) :=
  match reallocWith h p n none ok with
  | .ub => .ub
  | .ok h none => .ok h none
  | .ok h (some q) =>
    match memset0 h q n with
    | .ub => .ub
    | .ok h () => .ok h (some q)

/-! ### objects -/

/-- a pointer to an object the program holds; `adj`: how far it lies inside the block (0 for the pointer `New` returned, something else after a conversion to a base class that is not the first) -/
structure Obj where
  blk : Nat
  adj : Nat := 0
  alive : Bool := true
deriving DecidableEq

structure St where
  heap : Heap := []
  objs : List Obj := []
  /-- constructors that returned, destructors called -/
  ctors : Nat := 0
  dtors : Nat := 0
  /-- constructors that threw -/
  threw : Nat := 0

inductive Out where
  | ub
  | thrown (s : St)
  | null (s : St)
  | ret (s : St)

/-- `New` (59-66) and `NewAndZero` (71-78) of a type of `n` bytes; `throws`: what the constructor does -/
def new (s : St) (n : Nat) (zero ok throws : Bool) : Out :=
  match (if zero then allocZero s.heap n ok else alloc s.heap n ok) with
  | .ub => .ub
  | .ok h none => .null { s with heap := h }
  | .ok h (some p) =>
    if throws then .thrown { s with heap := h, threw := s.threw + 1 }
    else .ret { s with heap := h, objs := s.objs ++ [{ blk := p.blk }], ctors := s.ctors + 1 }

/-- a conversion of pointer `i` to a base class at distance `adj` -/
def upcast (s : St) (i adj : Nat) : Out :=
  match s.objs[i]? with
  | some o => .ret { s with objs := s.objs.set i { o with adj := o.adj + adj } }
  | none => .ub

/-- `Delete` (81-88) of pointer `i`, not null: the destructor (of the whole object, if it is virtual), then `Free` of the same pointer -/
def delete (s : St) (i : Nat) : Out :=
  match s.objs[i]? with
  | some o =>
    if o.alive = false then .ub
    else match free s.heap (some ⟨o.blk, o.adj⟩) with
      | .ub => .ub
      | .ok h () => .ret { s with heap := h, objs := s.objs.set i { o with alive := false }, dtors := s.dtors + 1 }
  | none => .ub

inductive Op where
  | new (n : Nat) (zero ok throws : Bool)
  | upcast (i adj : Nat)
  | delete (i : Nat)

def step (s : St) : Op → Out
  | .new n z ok t => new s n z ok t
  | .upcast i a => upcast s i a
  | .delete i => delete s i

/-- what the caller has to see to: delete only living objects, once -/
def Valid (s : St) : Op → Prop
  | .new _ _ _ _ => True
  | .upcast i _ => ∃ o, s.objs[i]? = some o
  | .delete i => ∃ o, s.objs[i]? = some o ∧ o.alive = true

/-- additionally: only through pointers to the beginning of the object -/
def First (s : St) : Op → Prop
  | .delete i => ∀ o, s.objs[i]? = some o → o.adj = 0
  | _ => True

def Out.st : Out → Option St
  | .ub => none
  | .thrown s | .null s | .ret s => some s

/-- histories of valid calls -/
inductive Run : St → St → Prop
  | nil (s) : Run s s
  | snoc {s t u op} : Run s t → Valid t op → First t op → (step t op).st = some u → Run s u

end Verif.Alloc
