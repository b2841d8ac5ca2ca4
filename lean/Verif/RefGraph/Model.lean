import Verif.Common.Sum
/-!
Objects that hold other objects through `RefPtr` members (`include/YY/Base/Memory/RefPtr.h`), and variables of type `RefPtr`.

Releasing the last reference runs the destructor inside `Release` (51-63), which destroys the `RefPtr` members of the object, which may release
the last reference of further objects, and so on: all of this happens inside `Attach` (181-186), between the test of `p` and the store of
the new pointer. The nested calls are a stack of tasks here, so that every intermediate state is visible.

Simplifications. One thread (C28 has the interleavings); counts do not wrap (C28, C60); no weak pointers and no `Free` (C28, C60): an object
number is not used again. An access of an object whose destructor has started is undefined behaviour (`ub`), except for the destruction of
its members. `Create` (266-269) always finds memory.
-/
namespace Verif.RefGraph

/-- How the program names a `RefPtr`: a variable, or member `k` of the object variable `i` points to (`v->field`). -/
inductive Slot where
  | var (i : Nat)
  | field (i k : Nat)
  deriving DecidableEq, Repr

/-- Where a `RefPtr` is: the address the slot stands for. -/
inductive Loc where
  | var (i : Nat)
  | fld (o k : Nat)
  deriving DecidableEq, Repr

/-- `d = RefPtr<C>::Create()` (266-269, 244-248), `d = s` (238-242), `d = std::move(s)` (244-248), `d = nullptr` (222-226). -/
inductive Op where
  | create (d : Slot) (c : Nat)
  | copy (d s : Slot)
  | move (d s : Slot)
  | clear (d : Slot)
  deriving DecidableEq, Repr

/-- A class: how many `RefPtr` members it has, and what the body of its destructor does -/
structure Cls where
  nfields : Nat
  dtor : List Op := []

/-- An object: `uRef`, its members, and how many of the members are not destroyed yet -/
structure Obj where
  cls : Nat
  ref : Nat := 1
  fields : List (Option Nat)
  left : Nat
  deriving DecidableEq, Repr

/-- A pending part of the calls: an operation, `o->Release()`, the destruction of the remaining members of `o`, and the store at the end of
`Attach` (185) -/
inductive Task where
  | op (q : Op)
  | rel (o : Nat)
  | fields (o : Nat)
  | store (l : Loc) (p : Option Nat)
  deriving DecidableEq, Repr

structure St where
  objs : List Obj := []
  vars : List (Option Nat)
  stack : List Task := []
  /-- the objects whose destructor was entered, in this order -/
  destroyed : List Nat := []
  ub : Bool := false
  deriving DecidableEq, Repr

/-- The address a slot stands for; `none`: a null pointer is dereferenced. -/
def St.resolve (s : St) : Slot → Option Loc
  | .var i => if i < s.vars.length then some (.var i) else none
  | .field i k =>
    match s.vars[i]? with
    | some (some o) => some (.fld o k)
    | _ => none

/-- The pointer at an address; `none`: undefined, the object is destroyed or has no such member. -/
def St.read (s : St) : Loc → Option (Option Nat)
  | .var i => s.vars[i]?
  | .fld o k =>
    match s.objs[o]? with
    | some b => if b.ref = 0 then none else b.fields[k]?
    | none => none

/-- Store a pointer. -/
def St.write (s : St) (l : Loc) (p : Option Nat) : Option St :=
  match l with
  | .var i => if i < s.vars.length then some { s with vars := s.vars.set i p } else none
  | .fld o k =>
    match s.objs[o]? with
    | some b => if b.ref = 0 then none else if k < b.fields.length then some { s with objs := s.objs.set o { b with fields := b.fields.set k p } } else none
    | none => none

/-- `AddRef` (45-49) of the object, if any, `p` points to (`Clone` 195-200) -/
def St.addRef (s : St) : Option Nat → Option St
  | none => some s
  | some o =>
    match s.objs[o]? with
    | some b => if b.ref = 0 then none else some { s with objs := s.objs.set o { b with ref := b.ref + 1 } }
    | none => none

/-- `if (p) p->Release();` (RefPtr.h 172-173, 183-184) -/
def relOpt : Option Nat → List Task
  | none => []
  | some o => [.rel o]

/-- `Attach(p)` (181-186) of the `RefPtr` at `l`: release what it holds now, then store. -/
def St.attach (s : St) (l : Loc) (p : Option Nat) : Option St :=
  match s.read l with
  | none => none
  | some old => some { s with stack := relOpt old ++ .store l p :: s.stack }

/-- Begin an operation. `none`: undefined. -/
def St.start (E : Nat → Cls) (s : St) : Op → Option St
  | .create d c =>
    match s.resolve d with
    | none => none
    | some l =>
      St.attach { s with objs := s.objs ++ [{ cls := c, fields := List.replicate (E c).nfields none, left := (E c).nfields }] } l
        (some s.objs.length)
  | .copy d t =>
    match s.resolve d, s.resolve t with
    | some ld, some lt =>
      match s.read lt with
      | none => none
      | some p =>
        match s.addRef p with
        | none => none
        | some s' => s'.attach ld p
    | _, _ => none
  | .move d t =>
    match s.resolve d, s.resolve t with
    | some ld, some lt =>
      match s.read lt with
      | none => none
      | some p =>
        match s.write lt none with
        | none => none
        | some s' => s'.attach ld p
    | _, _ => none
  | .clear d =>
    match s.resolve d with
    | none => none
    | some l => s.attach l none

/-- undefined behaviour: the rest is unknown -/
def St.bad (s : St) : St := { s with stack := [], ub := true }

def St.doOp (E : Nat → Cls) (s : St) (q : Op) : St := (s.start E q).getD s.bad

/-- Execute the task `t`; `s` is the state with the remaining tasks.
`rel`: `Release` 51-63; the destructor runs its body and then destroys the members, the last one first. -/
def St.exec (E : Nat → Cls) (s : St) : Task → St
  | .op q => s.doOp E q
  | .rel o =>
    match s.objs[o]? with
    | none => s.bad
    | some b =>
      if b.ref = 0 then s.bad
      else if b.ref = 1 then
        { s with objs := s.objs.set o { b with ref := 0 }, destroyed := s.destroyed ++ [o],
                 stack := (E b.cls).dtor.map .op ++ .fields o :: s.stack }
      else { s with objs := s.objs.set o { b with ref := b.ref - 1 } }
  | .fields o =>
    match s.objs[o]? with
    | none => s.bad
    | some b =>
      match b.left with
      | 0 => s
      | n + 1 => { s with objs := s.objs.set o { b with left := n }, stack := relOpt (b.fields[n]?.join) ++ .fields o :: s.stack }
  | .store l p => (s.write l p).getD s.bad

/-- One step inside the calls -/
def St.micro (E : Nat → Cls) (s : St) : St :=
  match s.stack with
  | [] => s
  | t :: rest => St.exec E { s with stack := rest } t

/-- The slot denotes a `RefPtr`: no null pointer on the way. -/
def Denotes (s : St) : Slot → Prop
  | .var i => i < s.vars.length
  | .field i k => ∃ o b, s.vars[i]? = some (some o) ∧ s.objs[o]? = some b ∧ k < b.fields.length

/-- All slots of the operation do. -/
def Valid (s : St) : Op → Prop
  | .create d _ => Denotes s d
  | .copy d t => Denotes s d ∧ Denotes s t
  | .move d t => Denotes s d ∧ Denotes s t
  | .clear d => Denotes s d

inductive Step (E : Nat → Cls) : St → St → Prop
  /-- the program starts an operation -/
  | op (s : St) (q : Op) (h : s.stack = []) (hv : Valid s q) : Step E s (s.doOp E q)
  | micro (s : St) (h : s.stack ≠ []) : Step E s (s.micro E)

inductive Steps (E : Nat → Cls) : St → St → Prop
  | refl (s) : Steps E s s
  | tail {s t u} : Steps E s t → Step E t u → Steps E s u

/-- All states of programs with `n` variables, all null at first -/
def Reach (E : Nat → Cls) (n : Nat) (s : St) : Prop := Steps E { vars := List.replicate n none } s

/-- No destructor has a body that uses the variables. -/
def Plain (E : Nat → Cls) : Prop := ∀ c, (E c).dtor = []

/-! ### Specification -/

/-- the object exists and its destructor was not entered -/
def Alive (s : St) (o : Nat) : Prop := ∃ b, s.objs[o]? = some b ∧ b.ref ≠ 0

/-- objects that a variable reaches through members -/
inductive Reachable (s : St) : Nat → Prop
  | var {i o : Nat} : s.vars[i]? = some (some o) → Reachable s o
  | field {o p : Nat} {b : Obj} : Reachable s o → s.objs[o]? = some b → some p ∈ b.fields → Reachable s p

/-- how many of the pointers in `l` point to `o` -/
def pts (o : Nat) (l : List (Option Nat)) : Nat := Common.sumBy (fun x => if x = some o then 1 else 0) l

/-- how many `RefPtr` hold `o`: variables, and members of objects that are not destroyed -/
def holders (s : St) (o : Nat) : Nat :=
  pts o s.vars + Common.sumBy (fun b => if b.ref = 0 then 0 else pts o b.fields) s.objs

end Verif.RefGraph
