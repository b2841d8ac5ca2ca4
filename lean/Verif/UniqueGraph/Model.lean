import Verif.Common.Sum
/-!
# Objects that own other objects through `UniquePtr` members (include/YY/Base/Memory/UniquePtr.h 27-141)

`Reset` (66-72) deletes the object before it stores the new pointer, and the destructor of the object destroys its `UniquePtr` members, which deletes further objects, and so on. The nested
calls are a stack of tasks here, so that every intermediate state is visible.

Simplifications. One thread; the handles are variables and members, no raw pointers are attached or detached (for those see `Verif.UniquePtr.Model`); an object number is not used again; `new` always
finds memory. A class is the number of its `UniquePtr` members and what the body of its destructor does. A member named by the program is a member of an object owned by a variable (`v->member`).
-/
namespace Verif.UniqueGraph

/-- how the program names a `UniquePtr` -/
inductive Slot where
  | var (i : Nat)
  | field (i k : Nat)
deriving DecidableEq

/-- where a `UniquePtr` is -/
inductive Loc where
  | var (i : Nat)
  | fld (o k : Nat)
deriving DecidableEq

/-- `d = UniquePtr<C>::Create()` (55-59, 122-130), `d = std::move(s)` (122-130), `d = nullptr` (116-120) -/
inductive Op where
  | create (d : Slot) (c : Nat)
  | move (d s : Slot)
  | clear (d : Slot)
deriving DecidableEq

structure Cls where
  nfields : Nat
  dtor : List Op := []

/-- `alive`: the destructor has not started; `freed`: the memory has been given back -/
inductive Life where
  | alive | dying | freed
deriving DecidableEq

/-- the member `p`. `own o`: the handle owns `o`; `stale o`: it still contains the pointer while `delete` is going on (69-71). The code cannot tell the two apart, and no step looks at the difference (`ptr`). -/
inductive Cell where
  | null
  | own (o : Nat)
  | stale (o : Nat)
deriving DecidableEq

def Cell.ptr : Cell → Option Nat
  | .null => none
  | .own o | .stale o => some o

def Cell.make : Option Nat → Cell
  | none => .null
  | some o => .own o

structure Obj where
  cls : Nat
  life : Life := .alive
  fields : List Cell
  /-- members not destroyed yet -/
  left : Nat
deriving DecidableEq

/-- pending part of the calls: an operation; `delete o`; the destruction of the remaining members of `o`; the store at the end of `Reset` (71) -/
inductive Task where
  | op (q : Op)
  | del (o : Nat)
  | fields (o : Nat)
  | store (l : Loc) (p : Option Nat)
deriving DecidableEq

/-- `null`: the program used a null pointer or a member that does not exist; `twice`: `delete` of an object that is already being destroyed or gone; `dangling`: access to memory given back -/
inductive Ub where
  | null | twice | dangling
deriving DecidableEq

structure St where
  objs : List Obj := []
  vars : List Cell
  stack : List Task := []
  ub : Option Ub := none
deriving DecidableEq

def St.cell (s : St) : Loc → Cell
  | .var i => s.vars.getD i .null
  | .fld o k => match s.objs[o]? with
    | some x => x.fields.getD k .null
    | none => .null

def St.setCell (s : St) (l : Loc) (c : Cell) : St :=
  match l with
  | .var i => { s with vars := s.vars.set i c }
  | .fld o k => match s.objs[o]? with
    | some x => { s with objs := s.objs.set o { x with fields := x.fields.set k c } }
    | none => s

/-- the address a slot stands for; `none`: undefined behaviour -/
def St.resolve (s : St) : Slot → Except Ub Loc
  | .var i => if i < s.vars.length then .ok (.var i) else .error .null
  | .field i k => match (s.vars.getD i .null).ptr with
    | none => .error .null
    | some o => match s.objs[o]? with
      | none => .error .dangling
      | some x => if x.life = .alive then (if k < x.fields.length then .ok (.fld o k) else .error .null) else .error .dangling

/-- `Reset(p)` (66-72) of the handle at `l`: `if (p) delete p; p = _pOther;` -/
def St.reset (s : St) (l : Loc) (p : Option Nat) : St :=
  match (s.cell l).ptr with
  | some o => { s.setCell l (.stale o) with stack := .del o :: .store l p :: s.stack }
  | none => { s with stack := .store l p :: s.stack }

/-- one operation of the program -/
def St.exec (C : Nat → Cls) (s : St) : Op → St
  | .create d c => match s.resolve d with
    | .error u => { s with ub := some u }
    | .ok l =>
      let n := s.objs.length
      St.reset { s with objs := s.objs ++ [{ cls := c, fields := List.replicate (C c).nfields .null, left := (C c).nfields }] } l (some n)
  | .move d q => match s.resolve d, s.resolve q with
    | .error u, _ => { s with ub := some u }
    | _, .error u => { s with ub := some u }
    | .ok l, .ok m =>
      -- `if (p != _Other.p) Attach(_Other.Detach())` (124-127)
      if (s.cell l).ptr ≠ (s.cell m).ptr then (s.setCell m .null).reset l (s.cell m).ptr else s
  | .clear d => match s.resolve d with
    | .error u => { s with ub := some u }
    | .ok l => s.reset l none

def St.step (C : Nat → Cls) (s : St) : St :=
  if s.ub ≠ none then s else
  match s.stack with
  | [] => s
  | .op q :: r => St.exec C { s with stack := r } q
  | .del o :: r => match s.objs[o]? with
    | none => { s with ub := some .twice }
    | some x =>
      if x.life = .alive then
        { s with objs := s.objs.set o { x with life := .dying }, stack := (C x.cls).dtor.map .op ++ .fields o :: r }
      else { s with ub := some .twice }
  | .fields o :: r => match s.objs[o]? with
    | none => { s with ub := some .dangling }
    | some x => match x.left with
      | 0 => { s with objs := s.objs.set o { x with life := .freed }, stack := r }
      | k + 1 => St.reset { s with objs := s.objs.set o { x with left := k }, stack := .fields o :: r } (.fld o k) none
  | .store l p :: r => match l with
    | .var _ => { s.setCell l (Cell.make p) with stack := r }
    | .fld o _ => match s.objs[o]? with
      | none => { s with ub := some .dangling }
      | some x => if x.life = .freed then { s with ub := some .dangling } else { s.setCell l (Cell.make p) with stack := r }

def run (C : Nat → Cls) : Nat → St → St
  | 0, s => s
  | n + 1, s => run C n (s.step C)

/-- executions of a program with `n` variables -/
inductive Reach (C : Nat → Cls) : St → Prop
  | init (n : Nat) (prog : List Op) : Reach C { vars := List.replicate n .null, stack := prog.map .op }
  | step {s : St} : Reach C s → Reach C (s.step C)

end Verif.UniqueGraph
