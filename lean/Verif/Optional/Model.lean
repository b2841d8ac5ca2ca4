import Verif.Common.Sum
/-!
# Model of `Optional<_Type>` (include/YY/Base/Containers/Optional.h)

Any number of `Optional` objects, identified by their position in a list (constructors append a new object; the destructor is `reset`, the object is not used afterwards).
`buf` is the value that lives in `oValueBuffer` (`none`: no living value there), `has` is `bHasValue`.
`made`/`killed` count the constructor / destructor calls of `_Type` for values inside Optionals.  `mv v` is the value left behind in an object of value `v` that was moved from.
A result `none` is undefined behaviour: destroying or reading a value that does not live, or dereferencing the null pointer of `GetValue` on an empty Optional.
-/
namespace Verif.Optional
variable {V : Type}

/-- An Optional object (Optional.h 19-24). -/
structure Obj (V : Type) where
  has : Bool := false
  buf : Option V := none
deriving DecidableEq

structure World (V : Type) where
  objs : List (Obj V) := []
  made : Nat := 0
  killed : Nat := 0

def World.set (w : World V) (i : Nat) (o : Obj V) : World V := { w with objs := w.objs.set i o }
def World.push (w : World V) (o : Obj V) : World V := { w with objs := w.objs ++ [o] }

/-- `Reset()` / `~Optional()` (101-108, 62-65): calls the destructor if `bHasValue`. -/
def reset (w : World V) (i : Nat) : Option (World V) :=
  match w.objs[i]? with
  | none => none
  | some o =>
    if o.has then
      match o.buf with
      | none => none
      | some _ => some { w.set i { has := false, buf := none } with killed := w.killed + 1 }
    else some w

/-- the object designated by `GetValue()` (82-90) -/
def value (w : World V) (i : Nat) : Option V :=
  match w.objs[i]? with
  | none => none
  | some o => if o.has then o.buf else none

/-- `new (&oValueBuffer) _Type(v)` followed by `bHasValue = true` -/
def construct (w : World V) (i : Nat) (v : V) : Option (World V) :=
  match w.objs[i]? with
  | none => none
  | some _ => some { w.set i { has := true, buf := some v } with made := w.made + 1 }

/-- a value is moved out of object `i`: it keeps living with value `mv v` -/
def movedFrom (mv : V → V) (w : World V) (i : Nat) : World V :=
  match w.objs[i]? with
  | none => w
  | some o => w.set i { o with buf := o.buf.map mv }

/-- `operator=(const _Type&)` (110-126) with an argument that is no part of an Optional, or is the value of Optional `src`. -/
def assignVal (w : World V) (i : Nat) (v : V) (src : Option Nat) : Option (World V) :=
  match w.objs[i]? with
  | none => none
  | some o =>
    if o.has then
      if src = some i then some w
      else match o.buf with
        | none => none
        | some _ => some (w.set i { o with buf := some v })
    else construct w i v

/-- `operator=(_Type&&)` (128-144), the argument being the value of Optional `src` (or no part of an Optional). -/
def assignMoveVal (mv : V → V) (w : World V) (i : Nat) (v : V) (src : Option Nat) : Option (World V) :=
  match w.objs[i]? with
  | none => none
  | some o =>
    if o.has then
      if src = some i then some w
      else match o.buf with
        | none => none
        | some _ =>
          let w := w.set i { o with buf := some v }
          some (match src with | some j => movedFrom mv w j | none => w)
    else
      match construct w i v with
      | none => none
      | some w => some (match src with | some j => movedFrom mv w j | none => w)

inductive Op (V : Type) where
  /-- `Optional()` 29 -/
  | newEmpty
  /-- `Optional(const _Type&)`, `Optional(_Type&&)` 31-41 -/
  | newVal (v : V)
  /-- `Optional(const Optional&)` 43-50 -/
  | newCopy (j : Nat)
  /-- `Optional(Optional&&)` 52-60 -/
  | newMove (j : Nat)
  /-- `Emplace(v)` 93-99 -/
  | emplace (i : Nat) (v : V)
  /-- `Emplace(x.GetValue())`: the argument is a reference to the value of Optional `j` -/
  | emplaceRef (i j : Nat)
  | reset (i : Nat)
  /-- `a = v` 110-126 -/
  | assignVal (i : Nat) (v : V)
  /-- `a = b.GetValue()` -/
  | assignRef (i j : Nat)
  /-- `a = std::move(b.GetValue())` 128-144 -/
  | assignMoveRef (i j : Nat)
  /-- `a = b` 146-158 -/
  | assign (i j : Nat)
  /-- `a = std::move(b)` 160-176 -/
  | assignMove (i j : Nat)
  /-- `GetValue` 82-90 -/
  | get (i : Nat)
  /-- `HasValue` 67-70 -/
  | hasValue (i : Nat)
  /-- `==` 178-189, `!=` 192-203 -/
  | eq (i j : Nat)
  | ne (i j : Nat)

inductive Obs (V : Type) where
  | unit
  | val (v : V)
  | bool (b : Bool)

variable [DecidableEq V]

/-- One call; `none` = undefined behaviour. -/
def step (mv : V → V) (w : World V) : Op V → Option (World V × Obs V)
  | .newEmpty => some (w.push {}, .unit)
  | .newVal v => some ({ w.push { has := true, buf := some v } with made := w.made + 1 }, .unit)
  | .newCopy j =>
    match w.objs[j]? with
    | none => none
    | some o =>
      if o.has then
        match o.buf with
        | none => none
        | some v => some ({ w.push { has := true, buf := some v } with made := w.made + 1 }, .unit)
      else some (w.push {}, .unit)
  | .newMove j =>
    match w.objs[j]? with
    | none => none
    | some o =>
      if o.has then
        match o.buf with
        | none => none
        | some v =>
          let w := movedFrom mv { w.push { has := true, buf := some v } with made := w.made + 1 } j
          (reset w j).map (·, .unit)
      else some (w.push {}, .unit)
  | .emplace i v => (reset w i).bind fun w => (construct w i v).map (·, .unit)
  | .emplaceRef i j =>
    -- the reference is formed before `Reset`, the value is read after it
    match value w j with
    | none => none
    | some _ => (reset w i).bind fun w => (value w j).bind fun v => (construct w i v).map (·, .unit)
  | .reset i => (reset w i).map (·, .unit)
  | .assignVal i v => (assignVal w i v none).map (·, .unit)
  | .assignRef i j => (value w j).bind fun v => (assignVal w i v (some j)).map (·, .unit)
  | .assignMoveRef i j => (value w j).bind fun v => (assignMoveVal mv w i v (some j)).map (·, .unit)
  | .assign i j =>
    match w.objs[j]? with
    | none => none
    | some o =>
      if o.has then (value w j).bind fun v => (assignVal w i v (some j)).map (·, .unit)
      else (reset w i).map (·, .unit)
  | .assignMove i j =>
    if i = j then some (w, .unit)
    else match w.objs[j]? with
      | none => none
      | some o =>
        if o.has then (value w j).bind fun v => (assignMoveVal mv w i v (some j)).bind fun w => (reset w j).map (·, .unit)
        else (reset w i).map (·, .unit)
  | .get i => (value w i).map fun v => (w, .val v)
  | .hasValue i => (w.objs[i]?).map fun o => (w, .bool o.has)
  | .eq i j =>
    match w.objs[i]?, w.objs[j]? with
    | some a, some b =>
      if a.has ≠ b.has then some (w, .bool false)
      else if ¬ a.has then some (w, .bool true)
      else (value w i).bind fun x => (value w j).map fun y => (w, .bool (decide (x = y)))
    | _, _ => none
  | .ne i j =>
    match w.objs[i]?, w.objs[j]? with
    | some a, some b =>
      if a.has ≠ b.has then some (w, .bool true)
      else if ¬ a.has then some (w, .bool false)
      else (value w i).bind fun x => (value w j).map fun y => (w, .bool (decide (x ≠ y)))
    | _, _ => none

/-- A history of calls; `none` = undefined behaviour. -/
def run (mv : V → V) (w : World V) : List (Op V) → Option (World V × List (Obs V))
  | [] => some (w, [])
  | op :: ops =>
    match step mv w op with
    | none => none
    | some (w, r) =>
      match run mv w ops with
      | none => none
      | some (w, rs) => some (w, r :: rs)

end Verif.Optional
