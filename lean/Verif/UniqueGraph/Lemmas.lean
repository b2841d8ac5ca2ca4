import Verif.UniqueGraph.Model
/-!
# Ownership invariant for C30
-/
namespace Verif.UniqueGraph
open Verif.Common

def Cell.has (o : Nat) : Cell → Nat
  | .own c => if c = o then 1 else 0
  | _ => 0

def Obj.has (o : Nat) (x : Obj) : Nat := sumBy (Cell.has o) x.fields

/-- number of handles that own `o` -/
def St.own (s : St) (o : Nat) : Nat := sumBy (Cell.has o) s.vars + sumBy (Obj.has o) s.objs

def optHas (o : Nat) : Option Nat → Nat
  | some c => if c = o then 1 else 0
  | none => 0

/-- pending calls that own `o` -/
def Task.hold (o : Nat) : Task → Nat
  | .del c => if c = o then 1 else 0
  | .store _ p => optHas o p
  | _ => 0

def Task.isFields (o : Nat) : Task → Nat
  | .fields c => if c = o then 1 else 0
  | _ => 0

def St.is (s : St) (f : Life) (o : Nat) : Nat := match s.objs[o]? with
  | some x => if x.life = f then 1 else 0
  | none => 0

theorem has_make (o : Nat) (p : Option Nat) : Cell.has o (Cell.make p) = optHas o p := by cases p <;> rfl

theorem getD_of {α} {l : List α} {i : Nat} {d x : α} (h : l[i]? = some x) : l.getD i d = x := by
  rw [List.getD_eq_getElem?_getD, h]; rfl

theorem sumBy_setD {α} (f : α → Nat) (d : α) (hd : f d = 0) (l : List α) (i : Nat) (x : α) (h : i < l.length) :
    sumBy f (l.set i x) + f (l.getD i d) = sumBy f l + f x := by
  have h' : l[i]? = some l[i] := List.getElem?_eq_getElem h
  rw [getD_of h']
  exact sumBy_set f l i x _ h'

def Valid (s : St) : Loc → Prop
  | .var i => i < s.vars.length
  | .fld o k => ∃ x, s.objs[o]? = some x ∧ k < x.fields.length

theorem own_set {s : St} {l : Loc} (v : Valid s l) (c : Cell) (o : Nat) :
    (s.setCell l c).own o + (s.cell l).has o = s.own o + c.has o := by
  cases l with
  | var i =>
    have := sumBy_setD (Cell.has o) .null rfl s.vars i c v
    simp only [St.setCell, St.own, St.cell]; omega
  | fld a k =>
    obtain ⟨x, hx, hk⟩ := v
    have e := sumBy_set (Obj.has o) s.objs a { x with fields := x.fields.set k c } x hx
    have e2 := sumBy_setD (Cell.has o) .null rfl x.fields k c hk
    simp only [St.setCell, St.own, St.cell, hx]
    simp only [Obj.has] at *
    omega

theorem getD_set {l : List Cell} (i j : Nat) (c : Cell) (h : i < l.length) : (l.set i c).getD j .null = if j = i then c else l.getD j .null := by
  simp only [List.getD_eq_getElem?_getD, List.getElem?_set]
  by_cases e : i = j
  · subst e; simp [h]
  · have e' : ¬ j = i := fun h => e h.symm
    simp [e, e']

theorem cell_set {s : St} {l : Loc} (v : Valid s l) (c : Cell) (m : Loc) : (s.setCell l c).cell m = if m = l then c else s.cell m := by
  cases l with
  | var i =>
    cases m with
    | var j =>
      simp only [St.setCell, St.cell]; rw [getD_set i j c v]
      by_cases e : j = i <;> simp [e]
    | fld a k => simp [St.setCell, St.cell]
  | fld a k =>
    obtain ⟨x, hx, hk⟩ := v
    cases m with
    | var j => simp [St.setCell, St.cell, hx]
    | fld b j =>
      have ha : a < s.objs.length := by
        rcases Nat.lt_or_ge a s.objs.length with h | h
        · exact h
        · rw [List.getElem?_eq_none h] at hx; cases hx
      simp only [St.setCell, St.cell, hx, List.getElem?_set]
      by_cases e : a = b
      · subst e
        simp only [if_true, if_pos ha]
        rw [getD_set k j c hk]
        by_cases e2 : j = k <;> simp [e2, hx]
      · have : ¬ b = a := fun h => e h.symm
        simp [e, this]

theorem life_set (s : St) (l : Loc) (c : Cell) (f : Life) (o : Nat) : (s.setCell l c).is f o = s.is f o := by
  cases l with
  | var i => rfl
  | fld a k =>
    simp only [St.setCell]
    split
    · rename_i x hx
      simp only [St.is, List.getElem?_set]
      by_cases e : a = o
      · subst e
        have ha : a < s.objs.length := by
          rcases Nat.lt_or_ge a s.objs.length with h | h
          · exact h
          · rw [List.getElem?_eq_none h] at hx; cases hx
        rw [if_pos rfl, if_pos ha, hx]
      · simp [e]
    · rfl

theorem stack_set (s : St) (l : Loc) (c : Cell) : (s.setCell l c).stack = s.stack := by
  cases l with
  | var i => rfl
  | fld a k => simp only [St.setCell]; split <;> rfl

theorem ub_set (s : St) (l : Loc) (c : Cell) : (s.setCell l c).ub = s.ub := by
  cases l with
  | var i => rfl
  | fld a k => simp only [St.setCell]; split <;> rfl

theorem vars_set (s : St) (o k : Nat) (c : Cell) : (s.setCell (.fld o k) c).vars = s.vars := by
  simp only [St.setCell]; split <;> rfl

theorem objs_set (s : St) (i : Nat) (c : Cell) : (s.setCell (.var i) c).objs = s.objs := rfl

/-- an object after `setCell`: as before but for one member -/
theorem obj_set {s : St} {l : Loc} {c : Cell} {o : Nat} {y : Obj} (h : (s.setCell l c).objs[o]? = some y) :
    ∃ x, s.objs[o]? = some x ∧ y.life = x.life ∧ y.left = x.left ∧ y.cls = x.cls ∧ y.fields.length = x.fields.length
      ∧ (∀ k, .fld o k ≠ l → y.fields[k]? = x.fields[k]?) ∧ (∀ k, .fld o k = l → ∀ d, y.fields[k]? = some d → d = c) := by
  cases l with
  | var i => exact ⟨y, h, rfl, rfl, rfl, rfl, fun _ _ => rfl, fun k e => by cases e⟩
  | fld a k =>
    simp only [St.setCell] at h
    split at h
    · rename_i x hx
      simp only [List.getElem?_set] at h
      by_cases e : a = o
      · subst e
        have ha : a < s.objs.length := by
          rcases Nat.lt_or_ge a s.objs.length with h | h
          · exact h
          · rw [List.getElem?_eq_none h] at hx; cases hx
        simp only [if_true, if_pos ha, Option.some.injEq] at h
        subst h
        refine ⟨x, hx, rfl, rfl, rfl, by simp, fun j hj => ?_, fun j hj d hd => ?_⟩
        · have : k ≠ j := fun e => hj (by rw [e])
          simp [List.getElem?_set, this]
        · cases hj
          simp only [List.getElem?_set, if_true] at hd
          split at hd
          · cases hd; rfl
          · cases hd
      · rw [if_neg e] at h
        exact ⟨y, h, rfl, rfl, rfl, rfl, fun _ _ => rfl, fun j hj => by cases hj; exact absurd rfl e⟩
    · rename_i hx
      refine ⟨y, h, rfl, rfl, rfl, rfl, fun _ _ => rfl, fun j hj => ?_⟩
      cases hj; rw [hx] at h; cases h

theorem obj_self {s : St} {a : Nat} {x : Obj} (h : s.objs[a]? = some x) (k : Nat) (c : Cell) :
    (s.setCell (.fld a k) c).objs[a]? = some { x with fields := x.fields.set k c } := by
  have ha : a < s.objs.length := by
    rcases Nat.lt_or_ge a s.objs.length with h' | h'
    · exact h'
    · rw [List.getElem?_eq_none h'] at h; cases h
  simp only [St.setCell, h, List.getElem?_set, if_true, if_pos ha]

/-- the pending calls of one operation: deletions nested over the store at the end of the outer `Reset` -/
inductive Busy (l : Loc) (p : Option Nat) : List Task → Prop
  | base (ops : List Op) : Busy l p (.store l p :: ops.map .op)
  | del (o : Nat) {r : List Task} : Busy l p r → Busy l p (.del o :: r)
  | fields (o : Nat) {r : List Task} : Busy l p r → Busy l p (.fields o :: r)
  | store (o k : Nat) {r : List Task} : Busy l p (.fields o :: r) → Busy l p (.store (.fld o k) none :: .fields o :: r)

/-- the handle the outer `Reset` will write is there, and its object is owned by somebody -/
def Anchor (s : St) (l : Loc) (p : Option Nat) : Prop :=
  match l with
  | .var i => i < s.vars.length
  | .fld o k => (∃ x, s.objs[o]? = some x ∧ x.life = .alive ∧ k < x.fields.length) ∧ ((.own o) ∈ s.vars ∨ p = some o)

theorem Anchor.valid {s : St} {l : Loc} {p : Option Nat} (a : Anchor s l p) : Valid s l := by
  cases l with
  | var i => exact a
  | fld o k => obtain ⟨⟨x, h1, _, h2⟩, _⟩ := a; exact ⟨x, h1, h2⟩

structure Inv (s : St) : Prop where
  eq : ∀ o, s.own o + sumBy (Task.hold o) s.stack = s.is .alive o
  fl : ∀ o, sumBy (Task.isFields o) s.stack = s.is .dying o
  shape : (∃ ops : List Op, s.stack = ops.map .op) ∨ ∃ l p, Busy l p s.stack ∧ Anchor s l p
  stale : ∀ l o, s.cell l = .stale o → ∃ p, .store l p ∈ s.stack
  noOwn : ∀ l p o, .store l p ∈ s.stack → s.cell l ≠ .own o
  left : ∀ (o : Nat) (x : Obj), s.objs[o]? = some x → x.left ≤ x.fields.length ∧ (x.life = .alive → x.left = x.fields.length) ∧ (x.life = .freed → x.left = 0)
    ∧ ∀ k c, x.left ≤ k → x.fields[k]? ≠ some (.own c)
  ub : s.ub ≠ some .twice ∧ s.ub ≠ some .dangling

theorem hold_ops (o : Nat) (ops : List Op) : sumBy (Task.hold o) (ops.map .op) = 0 := by
  rw [sumBy_eq_zero]; intro t ht
  obtain ⟨q, _, rfl⟩ := List.mem_map.1 ht; rfl

theorem fields_ops (o : Nat) (ops : List Op) : sumBy (Task.isFields o) (ops.map .op) = 0 := by
  rw [sumBy_eq_zero]; intro t ht
  obtain ⟨q, _, rfl⟩ := List.mem_map.1 ht; rfl

theorem no_store_ops {ops : List Op} {l : Loc} {p : Option Nat} (h : Task.store l p ∈ ops.map Task.op) : False := by
  obtain ⟨q, _, hq⟩ := List.mem_map.1 h; cases hq

theorem is_le (s : St) (f : Life) (o : Nat) : s.is f o ≤ 1 := by
  unfold St.is; split
  · split <;> omega
  · omega

theorem is_of {s : St} {f : Life} {o : Nat} (h : 0 < s.is f o) : ∃ x, s.objs[o]? = some x ∧ x.life = f := by
  unfold St.is at h; split at h
  · rename_i x hx
    split at h
    · rename_i e; exact ⟨x, hx, e⟩
    · omega
  · omega

theorem is_some {s : St} {f : Life} {o : Nat} {x : Obj} (h : s.objs[o]? = some x) : s.is f o = if x.life = f then 1 else 0 := by
  simp [St.is, h]

/-- a pending store is the outer one, or belongs to a member of an object whose members are being destroyed -/
theorem busy_store {l : Loc} {p : Option Nat} {t : List Task} (b : Busy l p t) {m : Loc} {q : Option Nat} (h : .store m q ∈ t) :
    (m = l ∧ q = p) ∨ ∃ o k, m = .fld o k ∧ .fields o ∈ t := by
  induction b with
  | base ops =>
    rcases List.mem_cons.1 h with e | e
    · cases e; exact .inl ⟨rfl, rfl⟩
    · exact (no_store_ops e).elim
  | del o b ih =>
    rcases List.mem_cons.1 h with e | e
    · cases e
    · rcases ih e with h | ⟨o, k, h1, h2⟩
      · exact .inl h
      · exact .inr ⟨o, k, h1, List.mem_cons_of_mem _ h2⟩
  | fields o b ih =>
    rcases List.mem_cons.1 h with e | e
    · cases e
    · rcases ih e with h | ⟨o, k, h1, h2⟩
      · exact .inl h
      · exact .inr ⟨o, k, h1, List.mem_cons_of_mem _ h2⟩
  | store o k b ih =>
    rcases List.mem_cons.1 h with e | e
    · cases e; exact .inr ⟨o, k, rfl, by simp⟩
    · rcases ih e with h | ⟨o, k, h1, h2⟩
      · exact .inl h
      · exact .inr ⟨o, k, h1, List.mem_cons_of_mem _ h2⟩

theorem fields_pos {o : Nat} {t : List Task} (h : .fields o ∈ t) : 0 < sumBy (Task.isFields o) t := by
  have := le_sumBy_of_mem (Task.isFields o) _ _ h
  simp only [Task.isFields, if_true] at this
  omega

theorem ptr_cases (c : Cell) : (c = .null ∧ c.ptr = none) ∨ (∃ o, c = .own o ∧ c.ptr = some o) ∨ ∃ o, c = .stale o ∧ c.ptr = some o := by
  cases c with
  | null => exact .inl ⟨rfl, rfl⟩
  | own o => exact .inr (.inl ⟨o, rfl, rfl⟩)
  | stale o => exact .inr (.inr ⟨o, rfl, rfl⟩)

/-- the outer `Reset` starts -/
theorem inv_reset {s : St} {l : Loc} {p : Option Nat} {ops : List Op} (hst : s.stack = ops.map .op) (he : ∀ o, s.own o + optHas o p = s.is .alive o)
    (hf : ∀ o, s.is .dying o = 0) (hs : ∀ l o, s.cell l ≠ .stale o) (ha : Anchor s l p)
    (hl : ∀ (o : Nat) (x : Obj), s.objs[o]? = some x → x.left ≤ x.fields.length ∧ (x.life = .alive → x.left = x.fields.length) ∧ (x.life = .freed → x.left = 0)
      ∧ ∀ k c, x.left ≤ k → x.fields[k]? ≠ some (.own c))
    (hu : s.ub ≠ some .twice ∧ s.ub ≠ some .dangling) : Inv (s.reset l p) := by
  unfold St.reset
  rcases ptr_cases (s.cell l) with ⟨hc, hp⟩ | ⟨o, hc, hp⟩ | ⟨o, hc, hp⟩
  · rw [hp]
    refine ⟨fun o => ?_, fun o => ?_, .inr ⟨l, p, ?_, ha⟩, ?_, ?_, hl, hu⟩
    · have := he o
      have h0 := hold_ops o ops
      show s.own o + sumBy (Task.hold o) (_ :: s.stack) = s.is .alive o
      rw [hst]; simp only [sumBy_cons, Task.hold]; omega
    · have := hf o
      show sumBy (Task.isFields o) (_ :: s.stack) = s.is .dying o
      rw [hst]; simp only [sumBy_cons, Task.isFields]; rw [fields_ops]; omega
    · show Busy l p (_ :: s.stack)
      rw [hst]; exact .base ops
    · intro m o h; exact absurd h (hs m o)
    · intro m q o h hm
      rcases List.mem_cons.1 h with e | e
      · cases e
        have hm' : s.cell l = .own o := hm
        rw [hc] at hm'; cases hm'
      · rw [hst] at e; exact no_store_ops e
  · rw [hp]
    have v := ha.valid
    refine ⟨fun a => ?_, fun a => ?_, .inr ⟨l, p, ?_, ?_⟩, ?_, ?_, ?_, ?_⟩
    · have e1 := own_set v (.stale o) a
      have := he a
      have h0 := hold_ops a ops
      show (s.setCell l (.stale o)).own a + sumBy (Task.hold a) (_ :: _ :: s.stack) = (s.setCell l (.stale o)).is .alive a
      rw [life_set, hst]
      rw [hc] at e1
      simp only [sumBy_cons, Task.hold, Cell.has] at *
      omega
    · have := hf a
      show sumBy (Task.isFields a) (_ :: _ :: s.stack) = (s.setCell l (.stale o)).is .dying a
      rw [life_set, hst]; simp only [sumBy_cons, Task.isFields]; rw [fields_ops]; omega
    · show Busy l p (_ :: _ :: s.stack)
      rw [hst]; exact .del o (.base ops)
    · cases l with
      | var i => simpa [Anchor, St.setCell] using ha
      | fld a k =>
        obtain ⟨⟨x, h1, h2, h3⟩, h4⟩ := ha
        refine ⟨?_, ?_⟩
        · refine ⟨{ x with fields := x.fields.set k (.stale o) }, ?_, h2, by simp; exact h3⟩
          exact obj_self h1 k _
        · rcases h4 with h4 | h4
          · left
            show _ ∈ (s.setCell _ _).vars
            rw [vars_set]; exact h4
          · exact .inr h4
    · intro m a h
      have h' : (s.setCell l (.stale o)).cell m = .stale a := h
      rw [cell_set v] at h'
      by_cases e : m = l
      · exact ⟨p, by rw [e]; simp⟩
      · rw [if_neg e] at h'; exact absurd h' (hs m a)
    · intro m q a h hm
      have hm' : (s.setCell l (.stale o)).cell m = .own a := hm
      rw [cell_set v] at hm'
      have h' : Task.store m q ∈ Task.del o :: Task.store l p :: s.stack := h
      rw [hst] at h'
      simp only [List.mem_cons, reduceCtorEq, false_or] at h'
      rcases h' with e | e
      · cases e; simp at hm'
      · exact no_store_ops e
    · intro a y hy
      have hy' : (s.setCell l (.stale o)).objs[a]? = some y := hy
      obtain ⟨x, hx, e1, e2, _, e3, e4, e5⟩ := obj_set hy'
      obtain ⟨l1, l2, l3, l4⟩ := hl a x hx
      refine ⟨by omega, fun h => by rw [e2, e3]; exact l2 (e1 ▸ h), fun h => by rw [e2]; exact l3 (e1 ▸ h), fun k c hk hc => ?_⟩
      by_cases e : .fld a k = l
      · have := e5 k e _ hc; cases this
      · rw [e4 k e] at hc; exact l4 k c (by omega) hc
    · exact (ub_set s l (.stale o)).symm ▸ hu
  · exact absurd hc (hs l o)

end Verif.UniqueGraph
