import Verif.DoublyLinkedList.Model
/-!
# Model of `Delegate` (include/YY/Base/Functional/Delegate.h)

A delegate is a doubly linked list of handlers (Delegate.h 17); any number of delegates share a heap of handlers.
Result `none` of a call: undefined behaviour or a loop that is not finished within the given number of iterations.
Callbacks run by `Invoke` do not themselves modify the delegate.
-/
namespace Verif.Delegate
open Verif.DoublyLinkedList

/-- `AddHandler` (Delegate.h 30-45). -/
def addHandler (w : World) (d : Nat) : Option Nat → World × Bool
  | none => (w, false)
  | some e =>
    if (w.heap e).prior ≠ none ∨ (w.heap e).next ≠ none then (w, false)
    else
      let (h, l) := pushBack w.heap (w.lists d) e
      ({ heap := h, lists := setList w.lists d l }, true)

/-- The search loop of `RemoveHandler` (Delegate.h 73-80). -/
def search (h : Heap) (e : Nat) : Nat → Option Nat → Option Bool
  | _, none => some false
  | 0, some _ => none
  | n+1, some p => if p = e then some true else search h e n (h p).next

def doRemove (w : World) (d e : Nat) : World :=
  let (h, l) := remove w.heap (w.lists d) e
  { heap := h, lists := setList w.lists d l }

/-- `RemoveHandler` (Delegate.h 47-84). -/
def removeHandler (w : World) (d : Nat) (fuel : Nat) : Option Nat → Option (World × Bool)
  | none => some (w, false)
  | some e =>
    if (w.heap e).prior = none then
      if (w.lists d).first = some e then some (doRemove w d e, true) else some (w, false)
    else if (w.heap e).next = none then
      if (w.lists d).last = some e then some (doRemove w d e, true) else some (w, false)
    else
      match search w.heap e fuel (w.lists d).first with
      | none => none
      | some true => some (doRemove w d e, true)
      | some false => some (w, false)

/-- `operator+=(Delegate&&)` (Delegate.h 86-90): flush the other list into a temporary, then append it. -/
def appendDelegate (w : World) (d o : Nat) : World :=
  let (tmp, o') := flush (w.lists o)
  let lists := setList w.lists o o'
  let (h, l, _) := pushBackList w.heap (lists d) tmp
  { heap := h, lists := setList lists d l }

/-- `Invoke` (Delegate.h 104-111): pop from the front and call, until empty. -/
def invoke (w : World) (d : Nat) : Nat → Option (World × List Nat)
  | 0 => if (w.lists d).first = none then some (w, []) else none
  | n+1 =>
    match popFront w.heap (w.lists d) with
    | (_, _, none) => some (w, [])
    | (h, l, some e) =>
      match invoke { heap := h, lists := setList w.lists d l } d n with
      | none => none
      | some (w, es) => some (w, e :: es)

inductive Op where
  | add (d : Nat) (e : Option Nat)
  | remove (d : Nat) (e : Option Nat) (fuel : Nat)
  | append (d o : Nat)
  | invoke (d : Nat) (fuel : Nat)

/-- What a call returns or does visibly: a Boolean and the handlers that were called, in order. -/
abbrev Obs := Bool × List Nat

def step (w : World) : Op → Option (World × Obs)
  | .add d e => let (w, b) := addHandler w d e; some (w, b, [])
  | .remove d e fuel => (removeHandler w d fuel e).map fun (w, b) => (w, b, [])
  | .append d o => some (appendDelegate w d o, true, [])
  | .invoke d fuel => (invoke w d fuel).map fun (w, es) => (w, true, es)

def run (w : World) : List Op → Option (World × List Obs)
  | [] => some (w, [])
  | op :: ops =>
    match step w op with
    | none => none
    | some (w, r) =>
      match run w ops with
      | none => none
      | some (w, rs) => some (w, r :: rs)

end Verif.Delegate
