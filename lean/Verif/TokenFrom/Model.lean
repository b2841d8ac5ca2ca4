import Verif.Common.Sum

/-!
# Model of cancellation tokens made from a pointer

`CancellationToken::FromPtr(WeakPtr<T>)` (include/YY/Base/Threading/CancellationToken.h 81-102; the overloads 58-79 and 104-125 have the same shape) and `CancellationTokenSource::Create` (133-199), over the reference
counting of `RefValue` (include/YY/Base/Memory/RefPtr.h 28-113), `RefPtr` (132-282) and `WeakPtr` (include/YY/Base/Memory/WeakPtr.h).

Objects are numbered in order of creation; so are the `RefPtr`s the user has. One thread (C28 treats the counters under threads), memory is always there, callbacks of the source are left out (C53).
`none` is undefined behaviour: use of a freed object or a count below zero.
-/
namespace Verif.TokenFrom
open Verif.Common

inductive Kind where
  /-- an object of the user, made by `RefPtr<T>::Create` -/
  | plain
  /-- `CancellationTokenImpl` with its member `pWeakPtr` -/
  | token (watch : Option Nat)
  /-- `CancellationTokenSourceImpl` -/
  | source
deriving DecidableEq

/-- `RefValue` (31-32) -/
structure Obj where
  kind : Kind
  ref : Nat
  weak : Nat
  /-- `bCancel` (138) -/
  cancel : Bool := false
  destroyed : Bool := false
  freed : Bool := false
deriving DecidableEq

structure World where
  objs : List Obj := []
  /-- the user's `RefPtr`s -/
  hs : List (Option Nat) := []
  /-- memory from `new` was given to `free` -/
  mismatch : Bool := false
deriving DecidableEq

/-- `AddRef` (RefPtr.h 45-49) -/
def addRef (w : World) (o : Nat) : Option World :=
  match w.objs[o]? with
  | none => none
  | some x => if x.freed then none else some { w with objs := w.objs.set o { x with ref := x.ref + 1 } }

/-- `AddWeakRef` (70-74) -/
def addWeak (w : World) (o : Nat) : Option World :=
  match w.objs[o]? with
  | none => none
  | some x => if x.freed then none else some { w with objs := w.objs.set o { x with weak := x.weak + 1 } }

/-- was the object made by `new`? (78, 101, 124, 198; `Create` of a user's class uses `malloc`, Alloc.h 59-66) -/
def Kind.byNew : Kind → Bool
  | .plain => false
  | _ => true

/-- `ReleaseWeak` (76-87) -/
def releaseWeak (w : World) (o : Nat) : Option World :=
  match w.objs[o]? with
  | none => none
  | some x =>
    if x.freed || x.weak = 0 then none
    else if x.weak = 1 then some { w with objs := w.objs.set o { x with weak := 0, freed := true }, mismatch := w.mismatch || x.kind.byNew }
    else some { w with objs := w.objs.set o { x with weak := x.weak - 1 } }

/-- the destructor of the members: `~WeakPtr` (WeakPtr.h 54-57, 84-91) -/
def dropMembers (w : World) : Kind → Option World
  | .token (some o) => releaseWeak w o
  | _ => some w

/-- `Release` (51-63) -/
def release (w : World) (o : Nat) : Option World :=
  match w.objs[o]? with
  | none => none
  | some x =>
    if x.freed || x.ref = 0 then none
    else if x.ref = 1 then
      match dropMembers { w with objs := w.objs.set o { x with ref := 0, destroyed := true } } x.kind with
      | none => none
      | some w => releaseWeak w o
    else some { w with objs := w.objs.set o { x with ref := x.ref - 1 } }

inductive Op where
  /-- `RefPtr<T>::Create` (RefPtr.h 265-269) -/
  | newObj
  /-- `CancellationTokenSource::Create`: `RefPtr::FromPtr` (198; RefPtr.h 276-281) takes over the first reference -/
  | create
  /-- `CancellationToken::FromPtr(WeakPtr<T>(h.Get()))`: the argument takes a weak reference (WeakPtr.h 32-37), the moves keep it (49-52) -/
  | fromPtr (h : Nat)
  /-- `CancellationToken::FromPtr(WeakPtr<T>())` -/
  | fromNull
  /-- copy of a `RefPtr` -/
  | copy (h : Nat)
  /-- destruction of a `RefPtr` -/
  | drop (h : Nat)
  /-- `Cancel` of a source -/
  | cancel (h : Nat)
  /-- `IsCancellationRequested` (95-98, 143-146; `WeakPtr::IsExpired` 111-114). Only tokens and sources have it; for a plain object the model answers its flag -/
  | isReq (h : Nat)
deriving DecidableEq

def handle (w : World) (h : Nat) : Option Nat := (w.hs[h]?).join

/-- `RefPtr(_Type*)` (141-146) of a new object, which has one reference already (35-39); the `RefPtr` goes to the user -/
def wrapNew (w : World) (k : Kind) : Option World :=
  (addRef { w with objs := w.objs ++ [⟨k, 1, 1, false, false, false⟩] } w.objs.length).map fun w' => { w' with hs := w'.hs ++ [some w.objs.length] }

/-- the result of a call: `some b` for `IsCancellationRequested` -/
def step (w : World) : Op → Option (World × Option Bool)
  | .newObj => some ({ w with objs := w.objs ++ [⟨.plain, 1, 1, false, false, false⟩], hs := w.hs ++ [some w.objs.length] }, none)
  | .create => some ({ w with objs := w.objs ++ [⟨.source, 1, 1, false, false, false⟩], hs := w.hs ++ [some w.objs.length] }, none)
  | .fromPtr h =>
    match handle w h with
    | none => none
    | some o =>
      match addWeak w o with
      | none => none
      | some w => (wrapNew w (.token (some o))).map (·, none)
  | .fromNull => (wrapNew w (.token none)).map (·, none)
  | .copy h =>
    match handle w h with
    | none => none
    | some o => (addRef w o).map fun w => ({ w with hs := w.hs ++ [some o] }, none)
  | .drop h =>
    match handle w h with
    | none => none
    | some o => (release w o).map fun w => ({ w with hs := w.hs.set h none }, none)
  | .cancel h =>
    match handle w h with
    | none => none
    | some o =>
      match w.objs[o]? with
      | none => none
      | some x => if x.freed then none else some ({ w with objs := w.objs.set o { x with cancel := true } }, none)
  | .isReq h =>
    match handle w h with
    | none => none
    | some o =>
      match w.objs[o]? with
      | none => none
      | some x =>
        if x.freed then none
        else
          match x.kind with
          | .plain => some (w, some x.cancel)
          | .source => some (w, some x.cancel)
          | .token none => some (w, some true)
          | .token (some p) =>
            match w.objs[p]? with
            | none => none
            | some y => if y.freed then none else some (w, some (y.ref == 0))

end Verif.TokenFrom
