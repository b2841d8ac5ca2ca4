/-!
# Model of `ObserverPtrFactory` and `ObserverPtr` (include/YY/Base/Memory/ObserverPtr.h)

Observed objects (classes deriving from `ObserverPtrFactory`), their shared `ObserverData` blocks and `ObserverPtr`s, each numbered in order of
creation.  The `RefPtr<ObserverData>` members are modelled by the reference count of the block; `none` is undefined behaviour: use of a
freed block, of a destroyed object, or a count below zero.  A destroyed observer keeps its place with null members.
One thread (the class is not thread safe).
-/
namespace Verif.ObserverPtr

/-- `ObserverData` 38-68; `freed`: `delete this` was executed -/
structure Data where
  ref : Nat
  destroyed : Bool
  freed : Bool

/-- an observed object: `ObserverPtrFactory` 35-100 -/
structure Obj where
  alive : Bool
  data : Option Nat

/-- `ObserverPtr` 103-227 -/
structure Obs where
  ptr : Option Nat
  data : Option Nat

structure World where
  datas : List Data := []
  objs : List Obj := []
  obs : List Obs := []

/-- `ObserverData::AddRef` 48-51 -/
def addRef (ds : List Data) (d : Nat) : Option (List Data) :=
  match ds[d]? with
  | none => none
  | some x => if x.freed then none else some (ds.set d { x with ref := x.ref + 1 })

/-- `ObserverData::Release` 53-62 -/
def release (ds : List Data) (d : Nat) : Option (List Data) :=
  match ds[d]? with
  | none => none
  | some x => if x.freed || x.ref = 0 then none else some (ds.set d { x with ref := x.ref - 1, freed := decide (x.ref - 1 = 0) })

/-- `if (p) p->Release()` -/
def releaseOpt (ds : List Data) : Option Nat → Option (List Data)
  | none => some ds
  | some d => release ds d

/-- `if (p) p->AddRef()` -/
def addRefOpt (ds : List Data) : Option Nat → Option (List Data)
  | none => some ds
  | some d => addRef ds d

/-- `GetObserverData` 91-99 on object `o` (allocation of the block is assumed to succeed): the block, with one reference for the returned `RefPtr` -/
def getObserverData (w : World) (o : Nat) : Option (World × Nat) :=
  match w.objs[o]? with
  | none => none
  | some x =>
    if x.alive then
      match x.data with
      | some d => (addRef w.datas d).map fun ds => ({ w with datas := ds }, d)
      | none =>
        let d := w.datas.length
        (addRef (w.datas ++ [⟨1, false, false⟩]) d).map fun ds =>
          ({ w with datas := ds, objs := w.objs.set o { x with data := some d } }, d)
    else none

/-- `Reset(_pOther)` 150-162 on observer `i` -/
def resetPtr (w : World) (i : Nat) (p : Option Nat) : Option World :=
  match w.obs[i]? with
  | none => none
  | some x =>
    match p with
    | some o =>
      match getObserverData w o with
      | none => none
      | some (w, d) => (releaseOpt w.datas x.data).map fun ds => { w with datas := ds, obs := w.obs.set i ⟨some o, some d⟩ }
    | none => (releaseOpt w.datas x.data).map fun ds => { w with datas := ds, obs := w.obs.set i ⟨none, none⟩ }

/-- `Reset()` 145-148: `pPtr` is kept -/
def reset (w : World) (i : Nat) : Option World :=
  match w.obs[i]? with
  | none => none
  | some x => (releaseOpt w.datas x.data).map fun ds => { w with datas := ds, obs := w.obs.set i { x with data := none } }

/-- `Get()` 135-143 -/
def get (w : World) (i : Nat) : Option (Option Nat) :=
  match w.obs[i]? with
  | none => none
  | some x =>
    match x.data with
    | none => some none
    | some d =>
      match w.datas[d]? with
      | none => none
      | some y => if y.freed then none else if y.destroyed then some none else some x.ptr

/-- `IsExpired()` 168-171 -/
def isExpired (w : World) (i : Nat) : Option Bool :=
  match w.obs[i]? with
  | none => none
  | some x =>
    match x.data with
    | none => some true
    | some d =>
      match w.datas[d]? with
      | none => none
      | some y => if y.freed then none else some y.destroyed

inductive Op where
  /-- an object is created (`ObserverPtrFactory()` 74) -/
  | newObj
  /-- an object is copy-constructed (`ObserverPtrFactory(const ObserverPtrFactory&) = default` 76) -/
  | copyObj (o : Nat)
  /-- an object is destroyed (78-84, then the member `RefPtr`) -/
  | destroyObj (o : Nat)
  /-- `ObserverPtr()` 110 followed by `Reset(p)`: `ObserverPtr(_Type*)` 112-115 -/
  | new (p : Option Nat)
  /-- copy constructor 117-121 -/
  | copy (j : Nat)
  /-- move constructor 123-128 -/
  | move (j : Nat)
  /-- destructor 130-133, `Reset()`, `= nullptr` 198-202 -/
  | reset (i : Nat)
  /-- `Reset(p)`, `= p` 204-208 -/
  | resetPtr (i : Nat) (p : Option Nat)
  /-- `operator=(const ObserverPtr&)` 210-214 -/
  | assign (i j : Nat)
  /-- `operator=(ObserverPtr&&)` 216-220 -/
  | assignMove (i j : Nat)
  | get (i : Nat)
  | isExpired (i : Nat)

inductive Ret where
  | unit
  | ptr (p : Option Nat)
  | bool (b : Bool)
deriving DecidableEq

def step (w : World) : Op → Option (World × Ret)
  | .newObj => some ({ w with objs := w.objs ++ [⟨true, none⟩] }, .unit)
  | .copyObj o =>
    match w.objs[o]? with
    | none => none
    | some x => if x.alive then (addRefOpt w.datas x.data).map fun ds => ({ w with datas := ds, objs := w.objs ++ [⟨true, x.data⟩] }, .unit) else none
  | .destroyObj o =>
    match w.objs[o]? with
    | none => none
    | some x =>
      if x.alive then
        match x.data with
        | none => some ({ w with objs := w.objs.set o ⟨false, none⟩ }, .unit)
        | some d =>
          match w.datas[d]? with
          | none => none
          | some y =>
            if y.freed then none
            else (release (w.datas.set d { y with destroyed := true }) d).map fun ds => ({ w with datas := ds, objs := w.objs.set o ⟨false, none⟩ }, .unit)
      else none
  | .new p => (resetPtr { w with obs := w.obs ++ [⟨none, none⟩] } w.obs.length p).map (·, .unit)
  | .copy j =>
    match w.obs[j]? with
    | none => none
    | some x => (addRefOpt w.datas x.data).map fun ds => ({ w with datas := ds, obs := w.obs ++ [x] }, .unit)
  | .move j =>
    match w.obs[j]? with
    | none => none
    | some x => some ({ w with obs := w.obs.set j ⟨none, none⟩ ++ [x] }, .unit)
  | .reset i => (reset w i).map (·, .unit)
  | .resetPtr i p => (resetPtr w i p).map (·, .unit)
  | .assign i j =>
    -- `pObserverData = _pOther.pObserverData`: Clone, then Attach (release the old block); `pPtr` is not copied
    match w.obs[i]?, w.obs[j]? with
    | some x, some y =>
      match addRefOpt w.datas y.data with
      | none => none
      | some ds => (releaseOpt ds x.data).map fun ds => ({ w with datas := ds, obs := w.obs.set i { x with data := y.data } }, .unit)
    | _, _ => none
  | .assignMove i j =>
    -- `Attach(_Other.Detach())`
    match w.obs[j]? with
    | none => none
    | some y =>
      let obs := w.obs.set j { y with data := none }
      match obs[i]? with
      | none => none
      | some x => (releaseOpt w.datas x.data).map fun ds => ({ w with datas := ds, obs := obs.set i { x with data := y.data } }, .unit)
  | .get i => (get w i).map fun r => (w, .ptr r)
  | .isExpired i => (isExpired w i).map fun b => (w, .bool b)

def run (w : World) : List Op → Option (World × List Ret)
  | [] => some (w, [])
  | op :: ops =>
    match step w op with
    | none => none
    | some (w, r) =>
      match run w ops with
      | none => none
      | some (w, rs) => some (w, r :: rs)

end Verif.ObserverPtr
