/-!
# Model of `ComObjectImpl` (include/YY/Base/Utils/ComObjectImpl.h)

Interface identifiers are natural numbers, `0` is `IUnknown`.  A class is declared with a list of bases; the base number `k` of the list is the
sub-object `k` of the object (19-41, 90-104: one base class for each).  An interface pointer is the number of the sub-object it points to.  COM
interfaces use single inheritance, so the conversion of a pointer to a base interface (62) keeps the sub-object.
-/
namespace Verif.ComObj

abbrev Iid := Nat
def iUnknown : Iid := 0

/-- an entry of `BaseInterfaces...`: an interface, or `ComObjectInheritChain<Derived, Chain...>` (49) -/
inductive Base where
  | plain (i : Iid)
  | chain (derived : Iid) (others : List Iid)
deriving DecidableEq

/-- `QueryChainImpl::CastImpl` (56-76): is the interface one of the chain? -/
def chainCast : List Iid → Iid → Bool
  | [], _ => false
  | i :: is, r => if r = i then true else chainCast is r

/-- `ComObjectInheritChain::Cast` (79-87) and line 34 of `ComObjectQuery::Cast` -/
def Base.cast (b : Base) (r : Iid) : Bool :=
  match b with
  | .plain i => decide (r = i)
  | .chain d os => if r = d then true else chainCast os r

/-- `ComObjectQuery::Cast` (20-23, 32-40, 95-103) from sub-object `k` on: the sub-object of the first base that answers -/
def castFrom (k : Nat) : List Base → Iid → Option Nat
  | [], _ => none
  | b :: bs, r => if b.cast r then some k else castFrom (k + 1) bs r

/-- the codes returned -/
inductive Hr where
  | ok | invalidArg | noInterface
deriving DecidableEq

/-- what `QueryInterface` does -/
structure Result where
  hr : Hr
  /-- what is stored through `ppObject`: `none` if nothing is stored, `some none` for null -/
  out : Option (Option Nat)
  /-- number of calls of `AddRef` -/
  addRefs : Nat
deriving DecidableEq

/-- `QueryInterface` (135-144) with `QueryInterfaceImpl` (163-184); `pp` = `ppObject != nullptr`.  Line 178 yields the address of the object itself,
that is sub-object 0. -/
def query (bases : List Base) (r : Iid) (pp : Bool) : Result :=
  if !pp then ⟨.invalidArg, none, 0⟩
  else match castFrom 0 bases r with
    | some k => ⟨.ok, some (some k), 1⟩
    | none => if r ≠ iUnknown then ⟨.noInterface, some none, 0⟩ else ⟨.ok, some (some 0), 1⟩

/-! ## Life of an object -/

structure St where
  /-- `uRef` (130), a `uint32_t` -/
  uRef : Nat
  /-- ghost: references owned by clients -/
  held : Nat
  /-- threads that have decremented the count to 0 and have not yet deleted the object (154-157) -/
  deleting : Nat
  /-- ghost: how often `delete` was executed -/
  deleted : Nat
  /-- ghost: a method was called after the deletion -/
  bad : Bool
deriving DecidableEq

/-- a new object belongs to its creator -/
def init : St := ⟨1, 1, 0, 0, false⟩

/-- One step of any thread.  A method is only called by somebody who owns a reference; `Sync::Increment` / `Sync::Decrement` are atomic and return
the new value.  `maxHeld` bounds the number of references in existence at one time. -/
inductive Step (bases : List Base) (maxHeld : Nat) : St → St → Prop
  /-- `AddRef` (146-149) -/
  | addRef (s : St) : 0 < s.held → s.held + 1 ≤ maxHeld →
      Step bases maxHeld s { s with uRef := (s.uRef + 1) % 2 ^ 32, held := s.held + 1, bad := s.bad || s.deleted != 0 }
  /-- `QueryInterface`: the `AddRef` of line 182, if it is reached, is owned by the caller -/
  | query (s : St) (r : Iid) (pp : Bool) : 0 < s.held → s.held + (query bases r pp).addRefs ≤ maxHeld →
      Step bases maxHeld s { s with
                              uRef := (s.uRef + (query bases r pp).addRefs) % 2 ^ 32
                              held := s.held + (if (query bases r pp).hr = .ok then 1 else 0)
                              bad := s.bad || s.deleted != 0 }
  /-- `Release` (151-160) up to the test -/
  | release (s : St) : 0 < s.held →
      Step bases maxHeld s { s with
                              uRef := (s.uRef + (2 ^ 32 - 1)) % 2 ^ 32
                              held := s.held - 1
                              deleting := s.deleting + (if (s.uRef + (2 ^ 32 - 1)) % 2 ^ 32 = 0 then 1 else 0)
                              bad := s.bad || s.deleted != 0 }
  /-- line 156 -/
  | delete (s : St) : 0 < s.deleting →
      Step bases maxHeld s { s with deleting := s.deleting - 1, deleted := s.deleted + 1, bad := s.bad || s.deleted != 0 }

inductive Reach (bases : List Base) (maxHeld : Nat) : St → Prop
  | init : Reach bases maxHeld init
  | step {s t} : Reach bases maxHeld s → Step bases maxHeld s t → Reach bases maxHeld t

end Verif.ComObj
