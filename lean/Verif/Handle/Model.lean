/-!
Model of the handle wrapper `Handle<HandleTraits>` (`include/YY/Base/Utils/Handle.h`).

Handle values are natural numbers, `khInvalidHandle` is the parameter `inv`. The operating system is the list of
open handles; it may give a value again after it was closed. `pseudo h` says that `h` is a predefined handle of the
registry (`intptr_t(h) < 0`, 80): such handles need no closing, and closing them does nothing.
Closing a handle that is not open, or using a destroyed wrapper, is undefined: the outcome `none`.
`user` is a ghost component: the raw handles somebody outside of the wrappers has to close.
-/
namespace Verif.Handle

/-- The traits of a handle kind (Handle.h 14-107): the invalid value and the predefined handles. -/
structure Traits where
  inv : Nat
  pseudo : Nat → Bool

/-- The world: open handles of the system, raw handles of the user, wrapper objects (`none` = destroyed). -/
structure W where
  os : List Nat
  user : List Nat
  objs : List (Option Nat)
deriving DecidableEq, Repr

/-- The field `hHandle` of wrapper `i` (Handle.h 122, 239); `none`: there is no such object. -/
def fld (w : W) (i : Nat) : Option Nat := w.objs[i]?.join

/-- Store into the field `hHandle`. -/
def put (w : W) (i v : Nat) : W := { w with objs := w.objs.set i (some v) }

/-- `::CloseHandle`/`::RegCloseKey`/`::FindClose` (Handle.h 22, 47, 70, 101). -/
def osClose (T : Traits) (h : Nat) (w : W) : Option W :=
  if T.pseudo h then some w
  else if h ∈ w.os then some { w with os := w.os.erase h } else none

/-- `Release` (Handle.h 182-189, 316-323). -/
def release (T : Traits) (i : Nat) (w : W) : Option W :=
  match fld w i with
  | none => none
  | some h => if h = T.inv then some w else (osClose T h w).map (put · i T.inv)

/-- `Attach` (Handle.h 166-173, 288-295). -/
def attach (T : Traits) (i h : Nat) (w : W) : Option W :=
  match fld w i with
  | none => none
  | some cur => if cur = h then some w else (release T i w).map (put · i h)

/-- `Detach` (Handle.h 175-180, 297-302): the value and the new world. -/
def detach (T : Traits) (i : Nat) (w : W) : Option (Nat × W) :=
  match fld w i with
  | none => none
  | some h => some (h, put w i T.inv)

/-- `Clone` (Handle.h 304-314) with `HandleTraits::DuplicateHandle` (32, 57, 79): `dup` is the handle the system
would give, `none` if the call fails. Predefined handles are copied as they are (80-84). -/
def clone (T : Traits) (j : Nat) (dup : Option Nat) (w : W) : Option (Nat × W) :=
  match fld w j with
  | none => none
  | some h =>
    if h = T.inv then some (T.inv, w)
    else if T.pseudo h then some (h, w)
    else match dup with
      | some n => some (n, { w with os := n :: w.os })
      | none => some (T.inv, w)

/-- A new wrapper object with field `v` (Handle.h 127-130, 242-245). -/
def mk (v : Nat) (w : W) : W := { w with objs := w.objs ++ [some v] }

/-- The operations of a program. -/
inductive Op where
  /-- the system gives a new raw handle to the user -/
  | sysOpen (h : Nat)
  /-- the user closes a raw handle -/
  | userClose (h : Nat)
  /-- `Handle()` -/
  | newEmpty
  /-- `Handle(h)` with a raw handle of the user -/
  | newRaw (h : Nat)
  /-- `Handle(const Handle&)` (247-250) -/
  | newCopy (j : Nat) (dup : Option Nat)
  /-- `Handle(Handle&&)` (135-138, 252-255) -/
  | newMove (j : Nat)
  /-- `~Handle()` (140-143, 257-260) -/
  | destroy (i : Nat)
  /-- `Attach(h)`, `operator=(HandleType)` (191, 331) with a raw handle of the user, the invalid value or the
  wrapper's own handle -/
  | attach (i h : Nat)
  /-- `Detach()` -/
  | detach (i : Nat)
  /-- `Release()` -/
  | release (i : Nat)
  /-- `*ReleaseAndGetAddressOf() = h` with a new handle (160-164, 282-286) -/
  | out (i h : Nat)
  /-- `operator=(const Handle&)` (325-329) -/
  | assign (i j : Nat) (dup : Option Nat)
  /-- `operator=(Handle&&)` (197-201, 337-341) -/
  | move (i j : Nat)
deriving DecidableEq, Repr

/-- Meaning of the operations; `none` = undefined. -/
def exec (T : Traits) : Op → W → Option W
  | .sysOpen h, w => some { w with os := h :: w.os, user := h :: w.user }
  | .userClose h, w => (osClose T h w).map fun w => { w with user := w.user.erase h }
  | .newEmpty, w => some (mk T.inv w)
  | .newRaw h, w => some (mk h { w with user := w.user.erase h })
  | .newCopy j dup, w => (clone T j dup w).map fun p => mk p.1 p.2
  | .newMove j, w => (detach T j w).map fun p => mk p.1 p.2
  | .destroy i, w => (release T i w).map fun w => { w with objs := w.objs.set i none }
  | .attach i h, w =>
    (attach T i h w).map fun w' => if fld w i = some h then w' else { w' with user := w'.user.erase h }
  | .detach i, w => (detach T i w).map fun p =>
      if p.1 = T.inv ∨ T.pseudo p.1 then p.2 else { p.2 with user := p.1 :: p.2.user }
  | .release i, w => release T i w
  | .out i h, w => (release T i w).map fun w => put { w with os := h :: w.os } i h
  | .assign i j dup, w => (clone T j dup w).bind fun p => attach T i p.1 p.2
  | .move i j, w => (detach T j w).bind fun p => attach T i p.1 p.2

/-- A raw value the system may give: not the invalid value, not predefined, not open. -/
def Fresh (T : Traits) (w : W) (h : Nat) : Prop := h ≠ T.inv ∧ T.pseudo h = false ∧ h ∉ w.os

/-- A raw value the user may give away or close: one they own, a predefined one or the invalid value. -/
def Mine (T : Traits) (w : W) (h : Nat) : Prop := h ∈ w.user ∨ T.pseudo h = true ∨ h = T.inv

/-- The contract of the operations: objects are alive, the system gives new values, the user gives handles that are
theirs. -/
def Ok (T : Traits) (w : W) : Op → Prop
  | .sysOpen h => Fresh T w h
  | .userClose h => h ∈ w.user
  | .newEmpty => True
  | .newRaw h => Mine T w h
  | .newCopy j dup => (fld w j).isSome ∧ ∀ n, dup = some n → Fresh T w n
  | .newMove j => (fld w j).isSome
  | .destroy i => (fld w i).isSome
  | .attach i h => (fld w i).isSome ∧ (Mine T w h ∨ fld w i = some h)
  | .detach i => (fld w i).isSome
  | .release i => (fld w i).isSome
  | .out i h => (fld w i).isSome ∧ h ≠ T.inv ∧ T.pseudo h = false ∧ (∀ w', release T i w = some w' → h ∉ w'.os)
  | .assign i j dup => (fld w i).isSome ∧ (fld w j).isSome ∧ ∀ n, dup = some n → Fresh T w n
  | .move i j => (fld w i).isSome ∧ (fld w j).isSome

/-- Executions that keep the contract; `none` as result: something undefined happened. -/
inductive Reach (T : Traits) : Option W → Prop
  | init : Reach T (some ⟨[], [], []⟩)
  | step {w : W} (op : Op) : Reach T (some w) → Ok T w op → Reach T (exec T op w)

/-- `Win32RegistryHandleTraits::CloseHandle` (Handle.h 68-74): the result for the status of `RegCloseKey` and the
thread's last error. `hr w` is `__HRESULT_FROM_WIN32`. -/
def regCloseResult (hr : Nat → Nat) (lstatus lastError : Nat) : Nat :=
  if lstatus = 0 then hr lastError else 0

/-- `Win32HandleTraits::CloseHandle` (Handle.h 20-26); `ok` is the result of `::CloseHandle`. -/
def closeResult (hr : Nat → Nat) (ok : Bool) (lastError : Nat) : Nat :=
  if !ok then hr lastError else 0

end Verif.Handle
