/-!
# Model of `UniquePtr<_Type>` and `UniquePtr<_Type[]>` (include/YY/Base/Memory/UniquePtr.h 27-141, 143-242)

Both classes have the same code with `delete` / `delete[]`.  Any number of `UniquePtr` objects (named by natural numbers; an object that
was not constructed yet or was destroyed holds null) and any number of heap objects (`live`; numbered in order of allocation).
The result `none` of `step` is undefined behaviour (deleting an object that is not live).
-/
namespace Verif.UniquePtr

def upd {β : Type} (f : Nat → β) (i : Nat) (x : β) : Nat → β := fun j => if j = i then x else f j

structure World where
  /-- member `p` of each UniquePtr -/
  h : Nat → Option Nat := fun _ => none
  live : Nat → Bool := fun _ => false
  next : Nat := 0

inductive Op where
  /-- `UniquePtr()` 37 -/
  | ctor (i : Nat)
  /-- `Create` 55-59 into the new handle `i` -/
  | create (i : Nat)
  /-- `explicit UniquePtr(_Type*)` 40-43 -/
  | fromRaw (i : Nat) (p : Option Nat)
  /-- `UniquePtr(UniquePtr&&)` 45-48 -/
  | moveCtor (i j : Nat)
  /-- `~UniquePtr()` 50-53 -/
  | dtor (i : Nat)
  /-- `Reset(p)` 66-72, `Attach(p)` 74-77, `operator=(nullptr_t)` 116-120 -/
  | reset (i : Nat) (p : Option Nat)
  /-- `Detach()` 79-84 -/
  | detach (i : Nat)
  /-- `operator=(UniquePtr&&)` 122-130 -/
  | assignMove (i j : Nat)
  /-- `Get()` 61-64, `operator _Type*`, `operator->` -/
  | get (i : Nat)
  /-- the program allocates an object itself (`new _Type`) -/
  | newRaw
  /-- the program deletes an object itself -/
  | deleteRaw (p : Nat)

/-- `delete p` -/
def delete (w : World) (o : Nat) : Option World := if w.live o then some { w with live := upd w.live o false } else none

/-- `Reset(p)` 66-72 -/
def reset (w : World) (i : Nat) (p : Option Nat) : Option World :=
  match w.h i with
  | some o => (delete w o).map fun w => { w with h := upd w.h i p }
  | none => some { w with h := upd w.h i p }

/-- One call and the pointer it returns. -/
def step (w : World) : Op → Option (World × Option Nat)
  | .ctor i => some ({ w with h := upd w.h i none }, none)
  | .create i => some ({ w with h := upd w.h i (some w.next), live := upd w.live w.next true, next := w.next + 1 }, none)
  | .fromRaw i p => some ({ w with h := upd w.h i p }, none)
  | .moveCtor i j =>
    let q := w.h j
    some ({ w with h := upd (upd w.h j none) i q }, none)
  | .dtor i => (reset w i none).map (·, none)
  | .reset i p => (reset w i p).map (·, none)
  | .detach i => some ({ w with h := upd w.h i none }, w.h i)
  | .assignMove i j =>
    if w.h i ≠ w.h j then
      let q := w.h j
      (reset { w with h := upd w.h j none } i q).map (·, none)
    else some (w, none)
  | .get i => some (w, w.h i)
  | .newRaw => some ({ w with live := upd w.live w.next true, next := w.next + 1 }, some w.next)
  | .deleteRaw p => (delete w p).map (·, none)

def run (w : World) : List Op → Option (World × List (Option Nat))
  | [] => some (w, [])
  | op :: ops =>
    match step w op with
    | none => none
    | some (w, r) =>
      match run w ops with
      | none => none
      | some (w, rs) => some (w, r :: rs)

end Verif.UniquePtr
