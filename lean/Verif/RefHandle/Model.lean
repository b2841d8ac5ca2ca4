/-!
# Model of the handle classes `RefPtr` and `WeakPtr` over `RefValue` (RefPtr.h 28-282, WeakPtr.h 23-168)

Any number of objects deriving from `RefValue` and of `RefPtr` / `WeakPtr` objects, each numbered in order of creation (a destroyed handle
stays in the list, holding null).  `none` is undefined behaviour: touching freed memory, a strong reference operation on a destroyed object,
a count below zero.  Simplifications: one thread (the interleavings of the counters themselves are modelled in `Verif.RefPtr`), counts are
unbounded, allocation succeeds, and the destructor of an object does not itself use handles.
Weak operations and `TryAddRef` on a destroyed but not yet freed object are permitted, as the class intends.
-/
namespace Verif.RefHandle

/-- `RefValue` 28-113; `destroyed`: the destructor ran, `freed`: the memory was returned -/
structure Obj where
  strong : Nat
  weak : Nat
  destroyed : Bool
  freed : Bool
deriving DecidableEq

structure World where
  objs : List Obj := []
  /-- member `p` of each `RefPtr` -/
  hs : List (Option Nat) := []
  /-- member `p` of each `WeakPtr` -/
  ws : List (Option Nat) := []

/-- `AddRef` 45-49 -/
def addRef (os : List Obj) (o : Nat) : Option (List Obj) :=
  match os[o]? with
  | none => none
  | some x => if x.destroyed || x.freed then none else some (os.set o { x with strong := x.strong + 1 })

/-- `ReleaseWeak` 76-87 -/
def releaseWeak (os : List Obj) (o : Nat) : Option (List Obj) :=
  match os[o]? with
  | none => none
  | some x => if x.freed || x.weak = 0 then none else some (os.set o { x with weak := x.weak - 1, freed := decide (x.weak - 1 = 0) })

/-- `Release` 51-63 -/
def release (os : List Obj) (o : Nat) : Option (List Obj) :=
  match os[o]? with
  | none => none
  | some x =>
    if x.destroyed || x.freed || x.strong = 0 then none
    else if x.strong - 1 = 0 then releaseWeak (os.set o { x with strong := x.strong - 1, destroyed := true }) o
    else some (os.set o { x with strong := x.strong - 1 })

/-- `AddWeakRef` 70-74 -/
def addWeak (os : List Obj) (o : Nat) : Option (List Obj) :=
  match os[o]? with
  | none => none
  | some x => if x.freed then none else some (os.set o { x with weak := x.weak + 1 })

/-- `TryAddRef` 89-103 (one thread: the loop runs at most once) -/
def tryAddRef (os : List Obj) (o : Nat) : Option (List Obj × Bool) :=
  match os[o]? with
  | none => none
  | some x => if x.freed then none else if x.strong = 0 then some (os, false) else some (os.set o { x with strong := x.strong + 1 }, true)

/-- `if (p) f(p)` -/
def opt (f : List Obj → Nat → Option (List Obj)) (os : List Obj) : Option Nat → Option (List Obj)
  | none => some os
  | some o => f os o

/-- `RefPtr::Attach` 181-186 -/
def attach (w : World) (i : Nat) (p : Option Nat) : Option World :=
  match w.hs[i]? with
  | none => none
  | some old => (opt release w.objs old).map fun os => { w with objs := os, hs := w.hs.set i p }

/-- `RefPtr::Detach` 188-193 -/
def detach (w : World) (i : Nat) : Option (World × Option Nat) :=
  match w.hs[i]? with
  | none => none
  | some old => some ({ w with hs := w.hs.set i none }, old)

/-- `RefPtr::Clone` 195-200 -/
def clone (w : World) (i : Nat) : Option (World × Option Nat) :=
  match w.hs[i]? with
  | none => none
  | some old => (opt addRef w.objs old).map fun os => ({ w with objs := os }, old)

/-- `WeakPtr::Attach` 59-64 -/
def attachW (w : World) (i : Nat) (p : Option Nat) : Option World :=
  match w.ws[i]? with
  | none => none
  | some old => (opt releaseWeak w.objs old).map fun os => { w with objs := os, ws := w.ws.set i p }

/-- `WeakPtr::Detach` 66-71 -/
def detachW (w : World) (i : Nat) : Option (World × Option Nat) :=
  match w.ws[i]? with
  | none => none
  | some old => some ({ w with ws := w.ws.set i none }, old)

/-- `WeakPtr::Reset(_pOther)` 93-105 -/
def resetW (w : World) (i : Nat) (p : Option Nat) : Option World :=
  match w.ws[i]? with
  | none => none
  | some old =>
    if old ≠ p then
      match opt releaseWeak w.objs old with
      | none => none
      | some os => (opt addWeak os p).map fun os => { w with objs := os, ws := w.ws.set i p }
    else some w

inductive Op where
  /-- `RefPtr()` 139 -/
  | new
  /-- `Create` 265-269 -/
  | create
  /-- `RefPtr(_Type*)` 141-146 -/
  | fromRaw (p : Option Nat)
  /-- `FromPtr` 276-281 -/
  | fromPtr (p : Option Nat)
  /-- copy constructors 148-157 -/
  | copy (j : Nat)
  /-- move constructors 159-168 -/
  | move (j : Nat)
  /-- `Attach(p)`, `Reset(p)`, `= nullptr` (p null) 181, 208, 222; the destructor 170-174 is `attach i none` -/
  | attach (i : Nat) (p : Option Nat)
  | detach (i : Nat)
  | clone (i : Nat)
  /-- `operator=(_Type*)` 228-236 -/
  | assignRaw (i : Nat) (p : Option Nat)
  /-- `operator=(const RefPtr&)` 238-242 -/
  | assign (i j : Nat)
  /-- `operator=(RefPtr&&)` 244-248 -/
  | assignMove (i j : Nat)
  /-- `Get` 176, conversions 250-258 -/
  | get (i : Nat)
  /-- the program calls `AddRef` / `Release` on an object -/
  | rawAddRef (p : Nat)
  | rawRelease (p : Nat)
  /-- `WeakPtr(_Type*)` 32-37, `WeakPtr()` (p null) -/
  | newW (p : Option Nat)
  /-- `WeakPtr(WeakPtrRef*)` 39-42 -/
  | fromRefW (p : Option Nat)
  /-- copy constructor 44-47 -/
  | copyW (j : Nat)
  /-- move constructor 49-52 -/
  | moveW (j : Nat)
  /-- `Reset()` 84-91, destructor 54-57, `= nullptr` -/
  | clearW (i : Nat)
  | attachW (i : Nat) (p : Option Nat)
  | detachW (i : Nat)
  /-- `= p` 147-151, `Reset(p)` -/
  | assignRawW (i : Nat) (p : Option Nat)
  /-- `operator=(const WeakPtr&)` 153-157 -/
  | assignW (i j : Nat)
  /-- `operator=(WeakPtr&&)` 159-167 -/
  | assignMoveW (i j : Nat)
  /-- `Get()` 73-82: makes a new `RefPtr` -/
  | getW (i : Nat)
  /-- `IsExpired()` 111-114 -/
  | expiredW (i : Nat)

inductive Ret where
  | unit
  | ptr (p : Option Nat)
  | bool (b : Bool)
deriving DecidableEq

def step (w : World) : Op → Option (World × Ret)
  | .new => some ({ w with hs := w.hs ++ [none] }, .unit)
  | .create => some ({ w with objs := w.objs ++ [⟨1, 1, false, false⟩], hs := w.hs ++ [some w.objs.length] }, .unit)
  | .fromRaw p => (opt addRef w.objs p).map fun os => ({ w with objs := os, hs := w.hs ++ [p] }, .unit)
  | .fromPtr p => some ({ w with hs := w.hs ++ [p] }, .unit)
  | .copy j =>
    match clone w j with
    | none => none
    | some (w, p) => some ({ w with hs := w.hs ++ [p] }, .unit)
  | .move j =>
    match detach w j with
    | none => none
    | some (w, p) => some ({ w with hs := w.hs ++ [p] }, .unit)
  | .attach i p => (attach w i p).map (·, .unit)
  | .detach i => (detach w i).map fun (w, p) => (w, .ptr p)
  | .clone i => (clone w i).map fun (w, p) => (w, .ptr p)
  | .assignRaw i p =>
    match opt addRef w.objs p with
    | none => none
    | some os => (attach { w with objs := os } i p).map (·, .unit)
  | .assign i j =>
    match clone w j with
    | none => none
    | some (w, p) => (attach w i p).map (·, .unit)
  | .assignMove i j =>
    match detach w j with
    | none => none
    | some (w, p) => (attach w i p).map (·, .unit)
  | .get i => (w.hs[i]?).map fun p => (w, .ptr p)
  | .rawAddRef p => (addRef w.objs p).map fun os => ({ w with objs := os }, .unit)
  | .rawRelease p => (release w.objs p).map fun os => ({ w with objs := os }, .unit)
  | .newW p => (opt addWeak w.objs p).map fun os => ({ w with objs := os, ws := w.ws ++ [p] }, .unit)
  | .fromRefW p => some ({ w with ws := w.ws ++ [p] }, .unit)
  | .copyW j =>
    match w.ws[j]? with
    | none => none
    | some p => (opt addWeak w.objs p).map fun os => ({ w with objs := os, ws := w.ws ++ [p] }, .unit)
  | .moveW j =>
    match detachW w j with
    | none => none
    | some (w, p) => some ({ w with ws := w.ws ++ [p] }, .unit)
  | .clearW i => (attachW w i none).map (·, .unit)
  | .attachW i p => (attachW w i p).map (·, .unit)
  | .detachW i => (detachW w i).map fun (w, p) => (w, .ptr p)
  | .assignRawW i p => (resetW w i p).map (·, .unit)
  | .assignW i j =>
    match w.ws[j]? with
    | none => none
    | some p => (resetW w i p).map (·, .unit)
  | .assignMoveW i j =>
    if j ≠ i then
      match detachW w j with
      | none => none
      | some (w, p) => (attachW w i p).map (·, .unit)
    else some (w, .unit)
  | .getW i =>
    match w.ws[i]? with
    | none => none
    | some none => some ({ w with hs := w.hs ++ [none] }, .ptr none)
    | some (some o) =>
      match tryAddRef w.objs o with
      | none => none
      | some (os, true) => some ({ w with objs := os, hs := w.hs ++ [some o] }, .ptr (some o))
      | some (_, false) => some ({ w with hs := w.hs ++ [none] }, .ptr none)
  | .expiredW i =>
    match w.ws[i]? with
    | none => none
    | some none => some (w, .bool true)
    | some (some o) =>
      match w.objs[o]? with
      | none => none
      | some x => if x.freed then none else some (w, .bool (decide (x.strong = 0)))

def run (w : World) : List Op → Option (World × List Ret)
  | [] => some (w, [])
  | op :: ops =>
    match step w op with
    | none => none
    | some (w, r) =>
      match run w ops with
      | none => none
      | some (w, rs) => some (w, r :: rs)

end Verif.RefHandle
