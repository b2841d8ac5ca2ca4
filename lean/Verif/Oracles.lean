import Verif.StrHeap.Model
import Verif.Arr.Model
import Verif.RefHandle.Model
import Verif.ObserverPtr.Model
import Verif.TokenFrom.Model
import Verif.RefGraph.Model
import Verif.UniquePtr.Model
import Verif.Handle.Model
import Verif.LowPriv.Model
import Verif.Utf.Model
import Verif.Alloc.Model

/-! # When the models are undefined

The safety theorems say that the code does nothing undefined.  They are worth as much as the models' notion of "undefined".  Here it is stated for the
basic actions: the action is undefined *exactly* (`C75_release`: at least) when it uses storage or an object that is not there any more, goes past the end of a block, or gives back
what is not held. -/

namespace Verif.StrHeap

/-- `memcpy` from outside into a buffer -/
theorem C10_copyIn_ext (m : Mem) (p off : Nat) (l : List Nat) :
    copyIn m p off (.ext l) = none ↔ p = 0 ∨ m p = none ∨ ∃ d, m p = some d ∧ d.cap + 1 < off + l.length := by
  unfold copyIn
  cases hd : m p with
  | none => simp
  | some d =>
    by_cases h0 : p = 0
    · simp [h0]
    · by_cases hk : d.cap + 1 < off + l.length <;> simp [h0, hk]

/-- `memcpy` from a buffer into a buffer: also undefined if the source is gone, too short, or overlaps the destination -/
theorem C10_copyIn_inn (m : Mem) (p off a o n : Nat) :
    copyIn m p off (.inn a o n) = none ↔
      p = 0 ∨ m p = none ∨ m a = none ∨
        (∃ d, m p = some d ∧ d.cap + 1 < off + n) ∨ (∃ e, m a = some e ∧ e.cap + 1 < o + n) ∨ (a = p ∧ o < off + n ∧ off < o + n) := by
  unfold copyIn
  cases hd : m p with
  | none => simp
  | some d =>
    by_cases h0 : p = 0
    · simp [h0]
    · cases ha : m a with
      | none => simp [h0, ha]
      | some e =>
        by_cases h1 : d.cap + 1 < off + n
        · simp [h0, ha, h1]
        · by_cases h2 : e.cap + 1 < o + n
          · simp [h0, ha, h1, h2]
          · by_cases h3 : a = p ∧ ¬ (o + n ≤ off ∨ off + n ≤ o)
            · simp only [h0, ha, h1, h2, h3, if_true, if_false, or_self]
              have : a = p ∧ o < off + n ∧ off < o + n := ⟨h3.1, by omega, by omega⟩
              simp [this, h3.1 ▸ ha]
            · have h4 : ¬ (a = p ∧ o < off + n ∧ off < o + n) := fun ⟨x, y, z⟩ => h3 ⟨x, by omega⟩
              simp only [h0, ha, h1, h2, h3, h4, if_false, or_self]
              simp [h1, h2]

/-- `memmove` inside a buffer -/
theorem C10_moveIn (m : Mem) (p off o n : Nat) :
    moveIn m p off o n = none ↔ p = 0 ∨ m p = none ∨ ∃ d, m p = some d ∧ (d.cap + 1 < off + n ∨ d.cap + 1 < o + n) := by
  unfold moveIn
  cases hd : m p with
  | none => simp
  | some d =>
    by_cases h0 : p = 0
    · simp [h0]
    · by_cases hk : d.cap + 1 < off + n ∨ d.cap + 1 < o + n <;> simp [h0, hk]

/-- swapping bytes in a buffer -/
theorem C10_swapIn (f : Nat → Nat) (m : Mem) (p n : Nat) :
    swapIn f m p n = none ↔ p = 0 ∨ m p = none ∨ ∃ d, m p = some d ∧ d.cap + 1 < n := by
  unfold swapIn
  cases hd : m p with
  | none => simp
  | some d =>
    by_cases h0 : p = 0
    · simp [h0]
    · by_cases hk : d.cap + 1 < n <;> simp [h0, hk]

/-- giving back a block that is gone -/
theorem C10_release (m : Mem) (p : Nat) : release m p = none ↔ m p = none := by
  unfold release
  cases m p with
  | none => simp
  | some d => simp only; repeat' split <;> simp_all

end Verif.StrHeap

namespace Verif.Arr
variable {α : Type} (T : Ty α)

/-- constructing an element (of a type with a constructor): outside the buffer, over a living element, or from one that does not live -/
theorem C18_cons1 (h : T.triv = false) (b : Buf α) (k : Nat) (v : Slot α) :
    cons1 T b k v = none ↔ b[k]? = none ∨ v.alive = false ∨ ∃ o, b[k]? = some o ∧ o.alive = true := by
  unfold cons1
  cases hb : b[k]? with
  | none => simp
  | some o => cases ho : o.alive <;> cases hv : v.alive <;> simp [h, ho, hv]

/-- assigning an element: outside the buffer, to or from one that does not live -/
theorem C18_asg1 (h : T.triv = false) (b : Buf α) (k : Nat) (v : Slot α) :
    asg1 T b k v = none ↔ b[k]? = none ∨ v.alive = false ∨ ∃ o, b[k]? = some o ∧ o.alive = false := by
  unfold asg1
  cases hb : b[k]? with
  | none => simp
  | some o => cases ho : o.alive <;> cases hv : v.alive <;> simp [h, ho, hv]

/-- destroying an element: outside the buffer, or one that does not live -/
theorem C18_des1 (h : T.triv = false) (b : Buf α) (k : Nat) :
    des1 T b k = none ↔ b[k]? = none ∨ ∃ o, b[k]? = some o ∧ o.alive = false := by
  unfold des1
  cases hb : b[k]? with
  | none => simp [h]
  | some o => cases ho : o.alive <;> simp [h, ho]

end Verif.Arr

namespace Verif.RefHandle

/-- `AddRef`: the object is destroyed or freed -/
theorem C60_addRef (os : List Obj) (o : Nat) :
    addRef os o = none ↔ os[o]? = none ∨ ∃ x, os[o]? = some x ∧ (x.destroyed = true ∨ x.freed = true) := by
  unfold addRef
  cases hx : os[o]? with
  | none => simp
  | some x => cases h1 : x.destroyed <;> cases h2 : x.freed <;> simp [h1, h2]

/-- `AddWeakRef`, `TryAddRef`: the storage is freed -/
theorem C60_addWeak (os : List Obj) (o : Nat) :
    (addWeak os o = none ↔ os[o]? = none ∨ ∃ x, os[o]? = some x ∧ x.freed = true) ∧
    (tryAddRef os o = none ↔ os[o]? = none ∨ ∃ x, os[o]? = some x ∧ x.freed = true) := by
  unfold addWeak tryAddRef
  cases hx : os[o]? with
  | none => simp
  | some x =>
    cases h2 : x.freed
    · refine ⟨by simp [h2], ?_⟩
      by_cases h0 : x.strong = 0 <;> simp [h2, h0]
    · simp [h2]

/-- `ReleaseWeak`: the storage is freed or there is no weak reference left -/
theorem C60_releaseWeak (os : List Obj) (o : Nat) :
    releaseWeak os o = none ↔ os[o]? = none ∨ ∃ x, os[o]? = some x ∧ (x.freed = true ∨ x.weak = 0) := by
  unfold releaseWeak
  cases hx : os[o]? with
  | none => simp
  | some x =>
    by_cases h1 : x.freed = true ∨ x.weak = 0
    · rcases h1 with h1 | h1 <;> simp [h1]
    · have : ¬ ((x.freed || decide (x.weak = 0)) = true) := by simpa using h1
      simp only [this]
      simp [h1]

/-- `Release`: the object is destroyed, freed or has no strong reference, or the last strong reference goes and the weak one held for it is missing -/
theorem C60_release (os : List Obj) (o : Nat) :
    release os o = none ↔ os[o]? = none ∨
      ∃ x, os[o]? = some x ∧ (x.destroyed = true ∨ x.freed = true ∨ x.strong = 0 ∨ (x.strong = 1 ∧ x.weak = 0)) := by
  unfold release
  cases hx : os[o]? with
  | none => simp
  | some x =>
    by_cases h1 : x.destroyed = true ∨ x.freed = true ∨ x.strong = 0
    · rcases h1 with h1 | h1 | h1 <;> simp [h1]
    · have g : ¬ ((x.destroyed || x.freed || decide (x.strong = 0)) = true) := by simpa [or_assoc] using h1
      have h0 : x.strong ≠ 0 := fun h => h1 (.inr (.inr h))
      have hd : x.destroyed = false := by cases h : x.destroyed <;> simp_all
      have hf : x.freed = false := by cases h : x.freed <;> simp_all
      simp only [g]
      by_cases h2 : x.strong = 1
      · have hl : o < os.length := (List.getElem?_eq_some_iff.1 hx).1
        have hs : (os.set o { x with strong := x.strong - 1, destroyed := true })[o]? = some { x with strong := x.strong - 1, destroyed := true } := by
          simp [hl]
        have h3 : x.strong - 1 = 0 := by omega
        simp only [h3, if_true, if_false, Bool.false_eq_true]
        rw [C60_releaseWeak, show (os.set o { x with strong := 0, destroyed := true })[o]? = some { x with strong := 0, destroyed := true } from by simp [hl]]
        simp [hd, hf, h2]
      · have h3 : ¬ x.strong - 1 = 0 := by omega
        simp [h3, hd, hf, h0, h2]

end Verif.RefHandle

namespace Verif.ObserverPtr

theorem C29_addRef (ds : List Data) (d : Nat) : addRef ds d = none ↔ ds[d]? = none ∨ ∃ x, ds[d]? = some x ∧ x.freed = true := by
  unfold addRef
  cases hx : ds[d]? with
  | none => simp
  | some x => cases h2 : x.freed <;> simp [h2]

theorem C29_release (ds : List Data) (d : Nat) : release ds d = none ↔ ds[d]? = none ∨ ∃ x, ds[d]? = some x ∧ (x.freed = true ∨ x.ref = 0) := by
  unfold release
  cases hx : ds[d]? with
  | none => simp
  | some x =>
    by_cases h1 : x.freed = true ∨ x.ref = 0
    · rcases h1 with h1 | h1 <;> simp [h1]
    · have : ¬ ((x.freed || decide (x.ref = 0)) = true) := by simpa using h1
      simp only [this]
      simp [h1]

end Verif.ObserverPtr

namespace Verif.TokenFrom

/-- references are counted in storage that is not freed -/
theorem C75_addRef (w : World) (o : Nat) :
    (addRef w o = none ↔ w.objs[o]? = none ∨ ∃ x, w.objs[o]? = some x ∧ x.freed = true) ∧
    (addWeak w o = none ↔ w.objs[o]? = none ∨ ∃ x, w.objs[o]? = some x ∧ x.freed = true) := by
  unfold addRef addWeak
  cases hx : w.objs[o]? with
  | none => simp
  | some x => cases h2 : x.freed <;> simp [h2]

theorem C75_releaseWeak (w : World) (o : Nat) :
    releaseWeak w o = none ↔ w.objs[o]? = none ∨ ∃ x, w.objs[o]? = some x ∧ (x.freed = true ∨ x.weak = 0) := by
  unfold releaseWeak
  cases hx : w.objs[o]? with
  | none => simp
  | some x =>
    by_cases h1 : x.freed = true ∨ x.weak = 0
    · rcases h1 with h1 | h1 <;> simp [h1]
    · have : ¬ ((x.freed || decide (x.weak = 0)) = true) := by simpa using h1
      simp only [this]
      have hf : x.freed = false := by cases hf : x.freed <;> simp_all
      have h0 : x.weak ≠ 0 := fun h => h1 (.inr h)
      by_cases h2 : x.weak = 1 <;> simp [h0, h2, hf]

theorem C75_release {w : World} {o : Nat} {x : Obj} (hx : w.objs[o]? = some x) (h : x.freed = true ∨ x.ref = 0) : release w o = none := by
  unfold release
  rw [hx]
  rcases h with h | h <;> simp [h]

end Verif.TokenFrom

namespace Verif.RefGraph

/-- a member of an object can be read, and a reference added, exactly while the object has references -/
theorem C107_read_member (s : St) (o k : Nat) :
    s.read (.fld o k) = none ↔ s.objs[o]? = none ∨ ∃ b, s.objs[o]? = some b ∧ (b.ref = 0 ∨ b.fields.length ≤ k) := by
  unfold St.read
  cases hb : s.objs[o]? with
  | none => simp [hb]
  | some b => by_cases h : b.ref = 0 <;> simp [hb, h]

theorem C107_addRef (s : St) (o : Nat) : s.addRef (some o) = none ↔ s.objs[o]? = none ∨ ∃ b, s.objs[o]? = some b ∧ b.ref = 0 := by
  unfold St.addRef
  cases hb : s.objs[o]? with
  | none => simp [hb]
  | some b => by_cases h : b.ref = 0 <;> simp [hb, h]

theorem C107_write_member (s : St) (o k : Nat) (p : Option Nat) :
    s.write (.fld o k) p = none ↔ s.objs[o]? = none ∨ ∃ b, s.objs[o]? = some b ∧ (b.ref = 0 ∨ b.fields.length ≤ k) := by
  unfold St.write
  cases hb : s.objs[o]? with
  | none => simp [hb]
  | some b => by_cases h : b.ref = 0 <;> by_cases h2 : k < b.fields.length <;> simp [hb, h, h2] <;> omega

end Verif.RefGraph

namespace Verif.UniquePtr

theorem C30_delete (w : World) (o : Nat) : delete w o = none ↔ w.live o = false := by
  unfold delete
  cases w.live o <;> simp

end Verif.UniquePtr

namespace Verif.Handle

/-- closing a handle that is not open -/
theorem C70_close (T : Traits) (h : Nat) (w : W) : osClose T h w = none ↔ T.pseudo h = false ∧ h ∉ w.os := by
  unfold osClose
  cases hp : T.pseudo h <;> by_cases hm : h ∈ w.os <;> simp [hm]

end Verif.Handle

namespace Verif.LowPriv

theorem C76_close (s : Os) (h : Nat) : closeHandle s h = none ↔ h ∉ s.open_ := by
  unfold closeHandle
  by_cases hm : h ∈ s.open_ <;> simp [hm]

end Verif.LowPriv

namespace Verif.Utf

/-- a unit can be written exactly while there is room -/
theorem C07_put (d : Dst) (c : Nat) : put d c = none ↔ d.cap ≤ d.buf.length := by
  unfold put
  by_cases h : d.buf.length < d.cap <;> simp [h] <;> omega

end Verif.Utf

namespace Verif.Alloc

/-- only the start of a living block can be freed -/
theorem C91_free (h : Heap) (p : Ptr) : free h (some p) = .ub ↔ p.off ≠ 0 ∨ ∀ c, h[p.blk]? ≠ some (some c) := by
  unfold free
  cases hb : h[p.blk]? with
  | none => simp [hb]
  | some x => cases x <;> by_cases ho : p.off = 0 <;> simp [hb, ho]

/-- `memset` stays inside a living block -/
theorem C91_memset0 (h : Heap) (p : Ptr) (n : Nat) :
    memset0 h p n = .ub ↔ (∀ c, h[p.blk]? ≠ some (some c)) ∨ ∃ c, h[p.blk]? = some (some c) ∧ c.length < p.off + n := by
  unfold memset0
  cases hb : h[p.blk]? with
  | none => simp [hb]
  | some x =>
    cases x with
    | none => simp [hb]
    | some c => by_cases hl : p.off + n ≤ c.length <;> simp [hb, hl] <;> omega

end Verif.Alloc
