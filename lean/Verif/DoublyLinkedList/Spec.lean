import Verif.DoublyLinkedList.Model
/-!
# Specification of the doubly linked list: a family of sequences of entries.
Independent of the pointer model (only the operation names `Op` are shared).
-/
namespace Verif.DoublyLinkedList

/-- Abstract state: for each list object its sequence of entries. -/
abbrev Abs := Nat → List Nat

/-- Put `e` immediately before the (first) `w`. -/
def insBefore (w e : Nat) : List Nat → List Nat
  | [] => []
  | x :: xs => if x = w then e :: x :: xs else x :: insBefore w e xs

/-- Effect of an API call on sequences, with the returned entry. -/
def specStep (A : Abs) : Op → Abs × Option Nat
  | .pushBack l e => (setList A l (A l ++ [e]), none)
  | .pushBackList l o => if l = o then (A, none) else (setList (setList A l (A l ++ A o)) o [], none)
  | .popBack l => (setList A l (A l).dropLast, (A l).getLast?)
  | .popFront l => (setList A l (A l).tail, (A l).head?)
  | .insertBefore l w e => (setList A l (insBefore w e (A l)), none)
  | .insertFront l e => (setList A l (e :: A l), none)
  | .remove l e => (setList A l ((A l).filter (· ≠ e)), none)
  | .flush dst src => (setList (setList A src []) dst (A src), none)

/-- Caller obligations: an entry that is inserted is in no list, an entry that is removed or inserted before
is in the given list, the target of a move is a newly constructed (empty) list object. -/
def Allowed (A : Abs) : Op → Prop
  | .pushBack _ e => ∀ m, e ∉ A m
  | .insertBefore l w e => w ∈ A l ∧ ∀ m, e ∉ A m
  | .insertFront _ e => ∀ m, e ∉ A m
  | .remove l e => e ∈ A l
  | .flush dst src => dst ≠ src ∧ A dst = []
  | _ => True

def specRun (A : Abs) : List Op → Abs × List (Option Nat)
  | [] => (A, [])
  | op :: ops => let (A, r) := specStep A op; let (A, rs) := specRun A ops; (A, r :: rs)

def AllowedRun (A : Abs) : List Op → Prop
  | [] => True
  | op :: ops => Allowed A op ∧ AllowedRun (specStep A op).1 ops

end Verif.DoublyLinkedList
