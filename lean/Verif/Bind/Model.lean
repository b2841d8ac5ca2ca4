/-!
# Model of `Bind` for member functions (include/YY/Base/Functional/Bind.h)

One object, the functors made by `Bind` with a pointer to it, and the running calls of these functors.  The smart pointers behave as proved for them
(C28-C30): an owning pointer keeps the object alive, `WeakPtr::Get` / `std::weak_ptr::lock` give an owning pointer or null, `ObserverPtr::Get` gives
a plain pointer that is null once the object has been destroyed.  The bound arguments are stored by `std::bind` and are left out: the member function is assumed to take them by value.
-/
namespace Verif.Bind

/-- what the functor captures -/
inductive Cap where
  /-- `UniquePtr`, `std::unique_ptr` (84-113): moved in, the functor cannot be copied -/
  | unique
  /-- `RefPtr`, `std::shared_ptr` (147-157, 191-201) -/
  | shared
  /-- `WeakPtr`, `std::weak_ptr` (166-182, 210-226) -/
  | weak
  /-- `ObserverPtr` (122-138) -/
  | observer
  /-- `UnsafeBindPtr` (235-245) -/
  | raw
deriving DecidableEq

/-- the captured pointer is itself a reference of the functor -/
def Cap.owns : Cap → Bool
  | .unique => true
  | .shared => true
  | _ => false

/-- the call holds a reference of its own: the local `_pThis` of lines 173 and 217 is an owning pointer -/
def Cap.locks : Cap → Bool
  | .weak => true
  | _ => false

/-- the lambda tests the pointer and throws `OperationCanceledException` (129-133, 173-177, 217-221) -/
def Cap.checks : Cap → Bool
  | .weak => true
  | .observer => true
  | _ => false

structure St where
  /-- owners of the object outside the functors -/
  ext : Nat
  /-- existing copies of the functor -/
  fns : Nat
  /-- calls of functors that are executing the member function -/
  running : Nat
  /-- the object has not been destroyed -/
  alive : Bool
  /-- calls that ended in `OperationCanceledException` -/
  thrown : Nat
  /-- calls that reached the member function -/
  ran : Nat
  /-- undefined behaviour: a null or dangling `this` was used -/
  bad : Bool
deriving DecidableEq

/-- references that keep the object alive -/
def refs (k : Cap) (s : St) : Nat := s.ext + (if k.owns then s.fns else 0) + (if k.locks then s.running else 0)

/-- a reference has been given up: the last one destroys the object -/
def settle (k : Cap) (s : St) : St := { s with alive := s.alive && decide (0 < refs k s) }

/-- the call operator (89-92, 127-136, 152-155, 171-180, 196-199, 215-224, 240-243).  `null`: the captured pointer never pointed to an object. -/
def call (k : Cap) (null : Bool) (s : St) : St :=
  if k.checks then
    if null || !s.alive then { s with thrown := s.thrown + 1 }
    else { s with running := s.running + 1, ran := s.ran + 1 }
  else
    { s with running := s.running + 1, ran := s.ran + 1, bad := s.bad || null || !s.alive }

/-- after `Bind`: with `UniquePtr` the object has moved into the functor, otherwise `n` owners remain -/
def start (k : Cap) (n : Nat) : St := ⟨if k = .unique then 0 else n, 1, 0, true, 0, 0, false⟩

/-- One step of any thread.  `selfDrop`: a functor may be destroyed while it is being called (a callback that clears the place it is stored in);
`dieInCall`: the last outside owner may go away during a call. -/
inductive Step (k : Cap) (null selfDrop dieInCall : Bool) : St → St → Prop
  | share (s : St) : 0 < s.ext → Step k null selfDrop dieInCall s { s with ext := s.ext + 1 }
  | drop (s : St) : 0 < s.ext → (dieInCall = true ∨ s.running = 0 ∨ 1 < s.ext) →
      Step k null selfDrop dieInCall s (settle k { s with ext := s.ext - 1 })
  | copy (s : St) : 0 < s.fns → k ≠ .unique → Step k null selfDrop dieInCall s { s with fns := s.fns + 1 }
  | destroy (s : St) : 0 < s.fns → (selfDrop = true ∨ s.running = 0 ∨ 1 < s.fns) →
      Step k null selfDrop dieInCall s (settle k { s with fns := s.fns - 1 })
  | call (s : St) : 0 < s.fns → Step k null selfDrop dieInCall s (call k null s)
  /-- the member function uses the object -/
  | use (s : St) : 0 < s.running → Step k null selfDrop dieInCall s { s with bad := s.bad || !s.alive }
  | ret (s : St) : 0 < s.running → Step k null selfDrop dieInCall s (settle k { s with running := s.running - 1 })

inductive Reach (k : Cap) (null selfDrop dieInCall : Bool) (n : Nat) : St → Prop
  | start : Reach k null selfDrop dieInCall n (start k n)
  | step {s t} : Reach k null selfDrop dieInCall n s → Step k null selfDrop dieInCall s t → Reach k null selfDrop dieInCall n t

end Verif.Bind
