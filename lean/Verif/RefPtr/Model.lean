import Verif.Common.Sum
/-!
# Model of intrusive reference counting: `RefValue` (include/YY/Base/Memory/RefPtr.h 28-113), used through
`RefPtr` (132-282) and `WeakPtr` (include/YY/Base/Memory/WeakPtr.h).

One object shared by any number of threads.  Each atomic access of `uRef`/`uWeakRef`, the destructor call and `Free` are separate steps.
Each thread owns a number of strong references (`RefPtr`s) and weak references (`WeakPtr`s) and may only use those it owns; references may be
handed to other threads (`give…`).  Counters are 32 bit and wrap; `ub` records an access after `Free`, a second destructor call or a second `Free`, or
use of the destroyed object.
The number of references that exist at once is assumed to be below 2^32-1 (guard of `addRef`, `addWeakRef`, `tryCas`).
-/
namespace Verif.RefPtr
open Verif.Common

/-- Number of values of the 32-bit counters `uRef`, `uWeakRef` (RefPtr.h 35-39). -/
@[irreducible] def wrap : Nat := 4294967296

/-- Where a thread is inside a call. -/
inductive PC where
  | idle
  /-- in `Release`, decrement gave 0, destructor not yet called (RefPtr.h 55-57) -/
  | dtor
  /-- in `Release`, destructor done, about to `ReleaseWeak` (59) -/
  | relWeak
  /-- in `ReleaseWeak`, decrement gave 0, about to `Free` (81-84) -/
  | free
  /-- in `TryAddRef` with local `_uCurrentRef` (92-100); pins one owned weak reference -/
  | trying (cur : Nat)
deriving DecidableEq

structure Th where
  strong : Nat := 0
  weak : Nat := 0
  pc : PC := .idle
deriving DecidableEq

structure St where
  uRef : Nat := 1
  uWeak : Nat := 1
  destroyed : Nat := 0
  freed : Nat := 0
  ub : Bool := false
  threads : List Th

/-- Total number of strong / weak references that exist. -/
def St.strongs (s : St) : Nat := sumBy Th.strong s.threads
def St.weaks (s : St) : Nat := sumBy Th.weak s.threads

/-- One access of the object's memory: undefined after `Free`. -/
def St.touch (s : St) : St := { s with ub := s.ub || s.freed > 0 }

/-- Steps of thread `i`. -/
inductive Step : St → St → Prop
  /-- use the object through an owned `RefPtr`: undefined when destroyed -/
  | use (s : St) (i : Nat) (t : Th) (h : s.threads[i]? = some t) (hp : t.pc = .idle) (ho : 0 < t.strong) :
      Step s { s with ub := s.ub || s.freed > 0 || s.destroyed > 0 }
  /-- `AddRef` (45-49): copying an owned `RefPtr` -/
  | addRef (s : St) (i : Nat) (t : Th) (h : s.threads[i]? = some t) (hp : t.pc = .idle) (ho : 0 < t.strong)
      (hb : s.strongs + 1 < wrap) :
      Step s { s.touch with uRef := (s.uRef + 1) % wrap, threads := s.threads.set i { t with strong := t.strong + 1 } }
  /-- `AddWeakRef` (70-74): making a `WeakPtr` from an owned `RefPtr` or `WeakPtr` -/
  | addWeakRef (s : St) (i : Nat) (t : Th) (h : s.threads[i]? = some t) (hp : t.pc = .idle) (ho : 0 < t.strong + t.weak)
      (hb : s.weaks + 2 < wrap) :
      Step s { s.touch with uWeak := (s.uWeak + 1) % wrap, threads := s.threads.set i { t with weak := t.weak + 1 } }
  /-- decrement in `Release` (54-55): giving up an owned `RefPtr` -/
  | release (s : St) (i : Nat) (t : Th) (h : s.threads[i]? = some t) (hp : t.pc = .idle) (ho : 0 < t.strong) :
      Step s { s.touch with
        uRef := (s.uRef + wrap - 1) % wrap,
        threads := s.threads.set i { t with strong := t.strong - 1,
                                            pc := if (s.uRef + wrap - 1) % wrap = 0 then .dtor else .idle } }
  /-- destructor call (57) -/
  | dtor (s : St) (i : Nat) (t : Th) (h : s.threads[i]? = some t) (hp : t.pc = .dtor) :
      Step s { s.touch with
        destroyed := s.destroyed + 1,
        ub := s.ub || s.freed > 0 || s.destroyed > 0,
        threads := s.threads.set i { t with pc := .relWeak } }
  /-- decrement of the weak count by `Release` (59, 79-81) -/
  | relWeak (s : St) (i : Nat) (t : Th) (h : s.threads[i]? = some t) (hp : t.pc = .relWeak) :
      Step s { s.touch with
        uWeak := (s.uWeak + wrap - 1) % wrap,
        threads := s.threads.set i { t with pc := if (s.uWeak + wrap - 1) % wrap = 0 then .free else .idle } }
  /-- decrement in `ReleaseWeak` (79-81): giving up an owned `WeakPtr` -/
  | releaseWeak (s : St) (i : Nat) (t : Th) (h : s.threads[i]? = some t) (hp : t.pc = .idle) (ho : 0 < t.weak) :
      Step s { s.touch with
        uWeak := (s.uWeak + wrap - 1) % wrap,
        threads := s.threads.set i { t with weak := t.weak - 1,
                                            pc := if (s.uWeak + wrap - 1) % wrap = 0 then .free else .idle } }
  /-- `Free` (83) -/
  | free (s : St) (i : Nat) (t : Th) (h : s.threads[i]? = some t) (hp : t.pc = .free) :
      Step s { s with freed := s.freed + 1, ub := s.ub || s.freed > 0, threads := s.threads.set i { t with pc := .idle } }
  /-- `TryAddRef` reads `uRef` (92): `WeakPtr::Get` on an owned `WeakPtr` -/
  | tryRead (s : St) (i : Nat) (t : Th) (h : s.threads[i]? = some t) (hp : t.pc = .idle) (ho : 0 < t.weak) :
      Step s { s.touch with threads := s.threads.set i { t with pc := .trying s.uRef } }
  /-- loop condition false (93, 102): the upgrade fails -/
  | tryFail (s : St) (i : Nat) (t : Th) (h : s.threads[i]? = some t) (hp : t.pc = .trying 0) :
      Step s { s with threads := s.threads.set i { t with pc := .idle } }
  /-- compare-exchange (95-99) -/
  | tryCas (s : St) (i : Nat) (t : Th) (cur : Nat) (h : s.threads[i]? = some t) (hp : t.pc = .trying cur) (hc : cur ≠ 0)
      (hb : s.strongs + 1 < wrap) :
      Step s (if s.uRef = cur then
        { s.touch with uRef := (cur + 1) % wrap, threads := s.threads.set i { t with strong := t.strong + 1, pc := .idle } }
      else { s.touch with threads := s.threads.set i { t with pc := .trying s.uRef } })
  /-- hand an owned strong reference from thread `i` to thread `j` (moving a `RefPtr`) -/
  | giveStrong (s : St) (i j : Nat) (t u : Th) (hij : i ≠ j) (h : s.threads[i]? = some t) (h' : s.threads[j]? = some u) (ho : 0 < t.strong)
      (hp : t.pc = .idle) :
      Step s { s with threads := (s.threads.set i { t with strong := t.strong - 1 }).set j { u with strong := u.strong + 1 } }
  /-- hand an owned weak reference that is not in use to another thread -/
  | giveWeak (s : St) (i j : Nat) (t u : Th) (hij : i ≠ j) (h : s.threads[i]? = some t) (h' : s.threads[j]? = some u) (ho : 0 < t.weak)
      (hp : t.pc = .idle) :
      Step s { s with threads := (s.threads.set i { t with weak := t.weak - 1 }).set j { u with weak := u.weak + 1 } }

/-- Initially (RefPtr.h 35-39, `RefPtr::Create` 266-269) one thread owns the only strong reference; any number of other threads. -/
def Init (s : St) : Prop := ∃ n, s = { threads := { strong := 1 } :: List.replicate n {} }

inductive Reach : St → Prop
  | init (s : St) (h : Init s) : Reach s
  | step (s s' : St) (h : Reach s) (hs : Step s s') : Reach s'

end Verif.RefPtr
