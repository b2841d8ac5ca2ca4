import Verif.UniqueGraph.Lemmas
/-!
# The invariant is kept by every step (destructors without code of their own)
-/
namespace Verif.UniqueGraph
open Verif.Common

theorem busy_ne_op {l : Loc} {p : Option Nat} {q : Op} {r : List Task} (b : Busy l p (.op q :: r)) : False := by cases b

theorem lt_of {s : St} {o : Nat} {x : Obj} (h : s.objs[o]? = some x) : o < s.objs.length := by
  rcases Nat.lt_or_ge o s.objs.length with h' | h'
  · exact h'
  · rw [List.getElem?_eq_none h'] at h; cases h

/-- between two operations every handle that is not null owns a live object -/
theorem var_alive {s : St} (he : ∀ o, s.own o ≤ s.is .alive o) {i o : Nat} (h : s.vars.getD i .null = .own o) : .own o ∈ s.vars ∧ ∃ x, s.objs[o]? = some x ∧ x.life = .alive := by
  have hm : .own o ∈ s.vars := by
    rw [List.getD_eq_getElem?_getD] at h
    cases hi : s.vars[i]? with
    | none => rw [hi] at h; cases h
    | some c => rw [hi] at h; cases h; exact List.mem_of_getElem? hi
  refine ⟨hm, is_of (s := s) (f := .alive) ?_⟩
  have := le_sumBy_of_mem (Cell.has o) _ _ hm
  have := he o
  simp only [Cell.has, if_true, St.own] at *
  omega

theorem resolve_ok {s : St} (he : ∀ o, s.own o ≤ s.is .alive o) (hs : ∀ l o, s.cell l ≠ .stale o) {d : Slot} {l : Loc} (h : s.resolve d = .ok l) : Anchor s l none := by
  cases d with
  | var i =>
    simp only [St.resolve] at h
    split at h
    · cases h; assumption
    · cases h
  | field i k =>
    simp only [St.resolve] at h
    rcases ptr_cases (s.vars.getD i .null) with ⟨hc, hp⟩ | ⟨o, hc, hp⟩ | ⟨o, hc, hp⟩
    · rw [hp] at h; cases h
    · rw [hp] at h
      obtain ⟨hm, x, hx, hx2⟩ := var_alive he hc
      simp only [hx, hx2, if_true] at h
      split at h
      · cases h; exact ⟨⟨x, hx, hx2, by assumption⟩, .inl hm⟩
      · cases h
    · exact absurd hc (hs (.var i) o)

theorem resolve_err {s : St} (he : ∀ o, s.own o ≤ s.is .alive o) (hs : ∀ l o, s.cell l ≠ .stale o) {d : Slot} {u : Ub} (h : s.resolve d = .error u) : u = .null := by
  cases d with
  | var i =>
    simp only [St.resolve] at h
    split at h
    · cases h
    · cases h; rfl
  | field i k =>
    simp only [St.resolve] at h
    rcases ptr_cases (s.vars.getD i .null) with ⟨hc, hp⟩ | ⟨o, hc, hp⟩ | ⟨o, hc, hp⟩
    · rw [hp] at h; cases h; rfl
    · rw [hp] at h
      obtain ⟨hm, x, hx, hx2⟩ := var_alive he hc
      simp only [hx, hx2, if_true] at h
      split at h
      · cases h
      · cases h; rfl
    · exact absurd hc (hs (.var i) o)

theorem has_null (o n : Nat) : sumBy (Cell.has o) (List.replicate n .null) = 0 := by
  rw [sumBy_eq_zero]; intro x hx; rw [List.eq_of_mem_replicate hx]; rfl

/-- the state between two operations -/
structure Rest (s : St) (ops : List Op) : Prop where
  stack : s.stack = ops.map .op
  eq : ∀ o, s.own o = s.is .alive o
  fl : ∀ o, s.is .dying o = 0
  stale : ∀ l o, s.cell l ≠ .stale o
  left : ∀ (o : Nat) (x : Obj), s.objs[o]? = some x → x.left ≤ x.fields.length ∧ (x.life = .alive → x.left = x.fields.length) ∧ (x.life = .freed → x.left = 0)
    ∧ ∀ k c, x.left ≤ k → x.fields[k]? ≠ some (.own c)
  ub : s.ub ≠ some .twice ∧ s.ub ≠ some .dangling

theorem Inv.rest {s : St} (I : Inv s) {ops : List Op} (h : s.stack = ops.map .op) : Rest s ops := by
  refine ⟨h, fun o => ?_, fun o => ?_, fun l o hc => ?_, I.left, I.ub⟩
  · have := I.eq o; rw [h, hold_ops] at this; omega
  · have := I.fl o; rw [h, fields_ops] at this; omega
  · obtain ⟨p, hp⟩ := I.stale l o hc
    rw [h] at hp; exact no_store_ops hp

theorem Rest.inv {s : St} {ops : List Op} (R : Rest s ops) : Inv s := by
  refine ⟨fun o => ?_, fun o => ?_, .inl ⟨ops, R.stack⟩, fun l o hc => absurd hc (R.stale l o), fun l p o h => ?_, R.left, R.ub⟩
  · rw [R.stack, hold_ops, R.eq]; rfl
  · rw [R.stack, fields_ops, R.fl]
  · rw [R.stack] at h; exact (no_store_ops h).elim

theorem Rest.le {s : St} {ops : List Op} (R : Rest s ops) : ∀ o, s.own o ≤ s.is .alive o := fun o => by rw [R.eq]; exact Nat.le_refl _

theorem inv_err {s : St} {ops : List Op} (R : Rest s ops) {d : Slot} {u : Ub} (h : s.resolve d = .error u) : Inv { s with ub := some u } := by
  have hu := resolve_err R.le R.stale h
  subst hu
  exact Rest.inv (ops := ops) ⟨R.stack, R.eq, R.fl, R.stale, R.left, by simp⟩

theorem inv_exec {C : Nat → Cls} {s : St} {ops : List Op} (R : Rest s ops) (q : Op) : Inv (s.exec C q) := by
  cases q with
  | clear d =>
    simp only [St.exec]
    cases h : s.resolve d with
    | error u => exact inv_err R h
    | ok l =>
      exact inv_reset R.stack (fun o => by rw [R.eq]; rfl) R.fl R.stale (resolve_ok R.le R.stale h) R.left R.ub
  | move d m =>
    simp only [St.exec]
    cases h : s.resolve d with
    | error u => exact inv_err R h
    | ok l =>
      cases h2 : s.resolve m with
      | error u => exact inv_err R h2
      | ok m' =>
        dsimp only
        by_cases e : (s.cell l).ptr ≠ (s.cell m').ptr
        · rw [if_pos e]
          have al := resolve_ok R.le R.stale h
          have am := resolve_ok R.le R.stale h2
          have vm := am.valid
          have hne : l ≠ m' := fun e' => e (by rw [e'])
          have hcell : ∀ o, optHas o (s.cell m').ptr = (s.cell m').has o := by
            intro o
            rcases ptr_cases (s.cell m') with ⟨hc, hp⟩ | ⟨a, hc, hp⟩ | ⟨a, hc, hp⟩
            · rw [hc]; rfl
            · rw [hc]; rfl
            · exact absurd hc (R.stale m' a)
          refine inv_reset (ops := ops) (by rw [stack_set]; exact R.stack) (fun o => ?_) (fun o => by rw [life_set]; exact R.fl o) (fun a o hc => ?_) ?_ ?_ (by rw [ub_set]; exact R.ub)
          · have := own_set vm .null o
            rw [life_set, ← R.eq, hcell]
            simp only [Cell.has] at *
            omega
          · rw [cell_set vm] at hc
            by_cases e : a = m'
            · rw [if_pos e] at hc; cases hc
            · rw [if_neg e] at hc; exact R.stale a o hc
          · cases l with
            | var i =>
              show i < (s.setCell m' .null).vars.length
              cases m' with
              | var j => simp [St.setCell]; exact al
              | fld a k => rw [vars_set]; exact al
            | fld o k =>
              obtain ⟨⟨x, hx, hx2, hk⟩, hv⟩ := al
              have hv : .own o ∈ s.vars := by
                rcases hv with h | h
                · exact h
                · cases h
              refine ⟨?_, ?_⟩
              · cases m' with
                | var j => exact ⟨x, hx, hx2, hk⟩
                | fld a j =>
                  by_cases ea : a = o
                  · subst ea
                    exact ⟨_, obj_self hx j .null, hx2, by simp; exact hk⟩
                  · refine ⟨x, ?_, hx2, hk⟩
                    simp only [St.setCell]
                    split
                    · simp [List.getElem?_set, ea, hx]
                    · exact hx
              · cases m' with
                | fld a j => left; rw [vars_set]; exact hv
                | var j =>
                  obtain ⟨i, hi⟩ := List.getElem?_of_mem hv
                  by_cases ej : j = i
                  · subst ej
                    right
                    simp only [St.cell]
                    rw [getD_of hi]; rfl
                  · left
                    show _ ∈ s.vars.set j .null
                    apply List.mem_of_getElem? (i := i)
                    simp [List.getElem?_set, ej, hi]
          · intro o y hy
            obtain ⟨x, hx, e1, e2, _, e3, e4, e5⟩ := obj_set hy
            obtain ⟨l1, l2, l3, l4⟩ := R.left o x hx
            refine ⟨by omega, fun h => by rw [e2, e3]; exact l2 (e1 ▸ h), fun h => by rw [e2]; exact l3 (e1 ▸ h), fun k c hk hc => ?_⟩
            by_cases e : .fld o k = m'
            · have := e5 k e _ hc; cases this
            · rw [e4 k e] at hc; exact l4 k c (by omega) hc
        · rw [if_neg e]; exact R.inv
  | create d c =>
    simp only [St.exec]
    cases h : s.resolve d with
    | error u => exact inv_err R h
    | ok l =>
      have al := resolve_ok R.le R.stale h
      dsimp only
      have hobj : ∀ (o : Nat) (x : Obj), (s.objs ++ [({ cls := c, fields := List.replicate (C c).nfields .null, left := (C c).nfields } : Obj)])[o]? = some x →
          s.objs[o]? = some x ∨ (o = s.objs.length ∧ x = { cls := c, fields := List.replicate (C c).nfields .null, left := (C c).nfields }) := by
        intro o x hx
        rw [List.getElem?_append] at hx
        split at hx
        · exact .inl hx
        · rename_i hlt
          rw [List.getElem?_singleton] at hx
          split at hx
          · rename_i e; cases hx; exact .inr ⟨by omega, rfl⟩
          · cases hx
      have hold : ∀ (o : Nat) (x : Obj), s.objs[o]? = some x →
          (s.objs ++ [({ cls := c, fields := List.replicate (C c).nfields .null, left := (C c).nfields } : Obj)])[o]? = some x := by
        intro o x hx
        rw [List.getElem?_append_left (lt_of hx)]; exact hx
      have hlife : ∀ f o, St.is { s with objs := s.objs ++ [{ cls := c, fields := List.replicate (C c).nfields .null, left := (C c).nfields }] } f o
          = s.is f o + if o = s.objs.length ∧ f = .alive then 1 else 0 := by
        intro f o
        simp only [St.is]
        rw [List.getElem?_append]
        by_cases e : o < s.objs.length
        · rw [if_pos e]
          have : ¬ (o = s.objs.length ∧ f = .alive) := fun h => by omega
          rw [if_neg this]; simp
        · rw [if_neg e, List.getElem?_eq_none (by omega : s.objs.length ≤ o)]
          by_cases e2 : o = s.objs.length
          · subst e2
            cases f <;> simp
          · have : ¬ (o = s.objs.length ∧ f = .alive) := fun h => e2 h.1
            rw [if_neg this, List.getElem?_singleton, if_neg (by omega)]
      refine inv_reset (ops := ops) R.stack (fun o => ?_) (fun o => ?_) (fun a o hc => ?_) ?_ (fun o x hx => ?_) R.ub
      · rw [hlife, ← R.eq]
        simp only [St.own]
        rw [sumBy_append]
        have : sumBy (Obj.has o) [({ cls := c, fields := List.replicate (C c).nfields .null, left := (C c).nfields } : Obj)] = 0 := by
          simp [Obj.has, has_null]
        rw [this]
        simp only [optHas, and_true]
        by_cases e : s.objs.length = o
        · rw [if_pos e, if_pos e.symm]; omega
        · rw [if_neg e, if_neg (fun h => e h.symm)]; omega
      · rw [hlife, R.fl]; simp
      · cases a with
        | var i => exact R.stale (.var i) o hc
        | fld b k =>
          simp only [St.cell] at hc
          cases hb : (s.objs ++ [({ cls := c, fields := List.replicate (C c).nfields .null, left := (C c).nfields } : Obj)])[b]? with
          | none => rw [hb] at hc; cases hc
          | some x =>
            rw [hb] at hc
            rcases hobj b x hb with h | ⟨_, h⟩
            · apply R.stale (.fld b k) o
              simp only [St.cell, h]; exact hc
            · subst h
              simp only [List.getD_eq_getElem?_getD, List.getElem?_replicate] at hc
              split at hc <;> cases hc
      · cases l with
        | var i => exact al
        | fld o k =>
          obtain ⟨⟨x, hx, hx2, hk⟩, hv⟩ := al
          refine ⟨⟨x, hold o x hx, hx2, hk⟩, .inl ?_⟩
          rcases hv with h | h
          · exact h
          · cases h
      · rcases hobj o x hx with h | ⟨_, h⟩
        · exact R.left o x h
        · subst h
          refine ⟨by simp, fun _ => by simp, (by intro h; cases h), fun k c hk hc => ?_⟩
          simp only [List.getElem?_replicate] at hc
          split at hc
          · cases hc
          · cases hc

/-! ### destruction of an object: only its `life` and `left` change -/

theorem put_own {s : St} {o : Nat} {x y : Obj} (h : s.objs[o]? = some x) (hf : y.fields = x.fields) (st : List Task) (a : Nat) :
    St.own { s with objs := s.objs.set o y, stack := st } a = s.own a := by
  have := sumBy_set (Obj.has a) s.objs o y x h
  simp only [St.own, Obj.has, hf] at *
  omega

theorem put_get {s : St} {o : Nat} {x : Obj} (h : s.objs[o]? = some x) (y : Obj) (b : Nat) : (s.objs.set o y)[b]? = if b = o then some y else s.objs[b]? := by
  rw [List.getElem?_set]
  by_cases e : o = b
  · subst e; simp [lt_of h]
  · have : ¬ b = o := fun h => e h.symm
    simp [e, this]

theorem put_cell {s : St} {o : Nat} {x y : Obj} (h : s.objs[o]? = some x) (hf : y.fields = x.fields) (st : List Task) (l : Loc) :
    St.cell { s with objs := s.objs.set o y, stack := st } l = s.cell l := by
  cases l with
  | var i => rfl
  | fld b k =>
    simp only [St.cell]
    rw [put_get h]
    by_cases e : b = o
    · subst e; simp [h, hf]
    · simp [e]

theorem put_is {s : St} {o : Nat} {x : Obj} (h : s.objs[o]? = some x) (y : Obj) (st : List Task) (f : Life) (b : Nat) :
    St.is { s with objs := s.objs.set o y, stack := st } f b = if b = o then (if y.life = f then 1 else 0) else s.is f b := by
  simp only [St.is]
  rw [put_get h]
  by_cases e : b = o <;> simp [e]

theorem put_anchor {s : St} {o : Nat} {x y : Obj} (h : s.objs[o]? = some x) (hf : y.fields = x.fields) (st : List Task) {l : Loc} {p : Option Nat}
    (a : Anchor s l p) (hn : ∀ k, l = .fld o k → y.life = x.life) : Anchor { s with objs := s.objs.set o y, stack := st } l p := by
  cases l with
  | var i => exact a
  | fld b k =>
    obtain ⟨⟨z, hz, h1, h2⟩, h3⟩ := a
    refine ⟨?_, h3⟩
    by_cases e : b = o
    · subst e
      rw [h] at hz; cases hz
      refine ⟨y, ?_, by rw [hn k rfl]; exact h1, by rw [hf]; exact h2⟩
      show (s.objs.set b y)[b]? = _
      rw [put_get h]; simp
    · refine ⟨z, ?_, h1, h2⟩
      show (s.objs.set o y)[b]? = _
      rw [put_get h, if_neg e]; exact hz

theorem hold_pos {s : St} (I : Inv s) {o : Nat} {r : List Task} (h : s.stack = .del o :: r) : ∃ x, s.objs[o]? = some x ∧ x.life = .alive := by
  apply is_of
  have := I.eq o
  rw [h] at this
  simp only [sumBy_cons, Task.hold, if_true] at this
  omega

theorem inv_del {s : St} (I : Inv s) {o : Nat} {r : List Task} (h : s.stack = .del o :: r) {x : Obj} (hx : s.objs[o]? = some x) (ha : x.life = .alive) :
    Inv { s with objs := s.objs.set o { x with life := .dying }, stack := .fields o :: r } := by
  have eo := I.eq o
  rw [h] at eo
  simp only [sumBy_cons, Task.hold, if_true] at eo
  have lo := is_le s .alive o
  refine ⟨fun a => ?_, fun a => ?_, ?_, fun l a hc => ?_, fun l p a hm hc => ?_, fun a y hy => ?_, I.ub⟩
  · rw [put_own (y := { x with life := .dying }) hx rfl, put_is hx]
    have := I.eq a
    rw [h] at this
    simp only [sumBy_cons, Task.hold] at *
    by_cases e : a = o
    · subst e; simp only [if_true] at *; simp; omega
    · rw [if_neg e]; rw [if_neg (fun h => e h.symm)] at this; omega
  · rw [put_is hx]
    have := I.fl a
    rw [h] at this
    simp only [sumBy_cons, Task.isFields] at *
    by_cases e : a = o
    · subst e
      rw [is_some hx, ha] at this
      simp at *; exact this
    · rw [if_neg e, if_neg (fun h => e h.symm)]; omega
  · right
    rcases I.shape with ⟨ops, ho⟩ | ⟨l, p, b, an⟩
    · rw [h] at ho; cases ops <;> simp at ho
    · refine ⟨l, p, ?_, put_anchor (y := { x with life := .dying }) hx rfl _ an fun k hl => ?_⟩
      · rw [h] at b; cases b; rename_i b; exact .fields o b
      · exfalso
        subst hl
        obtain ⟨⟨z, hz, h1, h2⟩, h3⟩ := an
        rcases h3 with h3 | h3
        · have := le_sumBy_of_mem (Cell.has o) _ _ h3
          simp only [Cell.has, if_true, St.own] at *
          omega
        · subst h3
          have hst : Task.store (.fld o k) (some o) ∈ r := by
            rw [h] at b
            cases b; rename_i b
            clear I h eo hx
            induction b with
            | base ops => simp
            | del _ _ ih => exact List.mem_cons_of_mem _ (ih)
            | fields _ _ ih => exact List.mem_cons_of_mem _ (ih)
            | store _ _ _ ih => exact List.mem_cons_of_mem _ (ih)
          have := le_sumBy_of_mem (Task.hold o) _ _ hst
          simp only [Task.hold, optHas, if_true] at this
          omega
  · rw [put_cell (y := { x with life := .dying }) hx rfl] at hc
    obtain ⟨p, hp⟩ := I.stale l a hc
    rw [h] at hp
    rcases List.mem_cons.1 hp with e | e
    · cases e
    · exact ⟨p, List.mem_cons_of_mem _ e⟩
  · rw [put_cell (y := { x with life := .dying }) hx rfl] at hc
    rcases List.mem_cons.1 hm with e | e
    · cases e
    · exact I.noOwn l p a (by rw [h]; exact List.mem_cons_of_mem _ e) hc
  · have hy' : (s.objs.set o { x with life := .dying })[a]? = some y := hy
    rw [put_get hx] at hy'
    by_cases e : a = o
    · rw [if_pos e] at hy'; cases hy'
      obtain ⟨l1, l2, l3, l4⟩ := I.left o x hx
      exact ⟨l1, (by intro h; cases h), (by intro h; cases h), l4⟩
    · rw [if_neg e] at hy'; exact I.left a y hy'

theorem fields_dying {s : St} (I : Inv s) {o : Nat} {r : List Task} (h : s.stack = .fields o :: r) :
    (∃ x, s.objs[o]? = some x ∧ x.life = .dying) ∧ sumBy (Task.isFields o) r = 0 := by
  have := I.fl o
  have hl := is_le s .dying o
  rw [h] at this
  simp only [sumBy_cons, Task.isFields, if_true] at this
  exact ⟨is_of (by omega), by omega⟩

theorem busy_tail {l : Loc} {p : Option Nat} {o : Nat} {r : List Task} (b : Busy l p (.fields o :: r)) : Busy l p r := by cases b; assumption

/-- the members of `o` that wait for their store belong to the call that is on top -/
theorem no_pending {s : St} (I : Inv s) {o : Nat} {r : List Task} (h : s.stack = .fields o :: r) {k : Nat} {p : Option Nat} (hm : Task.store (.fld o k) p ∈ r) : False := by
  obtain ⟨⟨x, hx, hd⟩, h0⟩ := fields_dying I h
  rcases I.shape with ⟨ops, ho⟩ | ⟨l, q, b, an⟩
  · rw [h] at ho; cases ops <;> simp at ho
  · rw [h] at b
    rcases busy_store (busy_tail b) hm with ⟨e, _⟩ | ⟨o', k', e, hf⟩
    · subst e
      obtain ⟨⟨z, hz, h1, _⟩, _⟩ := an
      rw [hx] at hz; cases hz; rw [hd] at h1; cases h1
    · cases e
      have := fields_pos hf
      omega

theorem inv_freed {s : St} (I : Inv s) {o : Nat} {r : List Task} (h : s.stack = .fields o :: r) {x : Obj} (hx : s.objs[o]? = some x) (h0 : x.left = 0) :
    Inv { s with objs := s.objs.set o { x with life := .freed }, stack := r } := by
  obtain ⟨⟨x', hx', hd⟩, hz⟩ := fields_dying I h
  rw [hx] at hx'; cases hx'
  refine ⟨fun a => ?_, fun a => ?_, ?_, fun l a hc => ?_, fun l p a hm hc => ?_, fun a y hy => ?_, I.ub⟩
  · rw [put_own (y := { x with life := .freed }) hx rfl, put_is hx]
    have := I.eq a
    rw [h] at this
    simp only [sumBy_cons, Task.hold] at this
    by_cases e : a = o
    · subst e
      rw [is_some hx, hd] at this
      simp at *; omega
    · rw [if_neg e]; show _ + sumBy _ r = _; omega
  · rw [put_is hx]
    have := I.fl a
    rw [h] at this
    simp only [sumBy_cons, Task.isFields] at this
    by_cases e : a = o
    · subst e; simp; omega
    · rw [if_neg e]; rw [if_neg (fun h => e h.symm)] at this; show sumBy _ r = _; omega
  · right
    rcases I.shape with ⟨ops, ho⟩ | ⟨l, p, b, an⟩
    · rw [h] at ho; cases ops <;> simp at ho
    · refine ⟨l, p, by rw [h] at b; exact busy_tail b, put_anchor (y := { x with life := .freed }) hx rfl _ an fun k hl => ?_⟩
      subst hl
      obtain ⟨⟨z, hz, h1, _⟩, _⟩ := an
      rw [hx] at hz; cases hz; rw [hd] at h1; cases h1
  · rw [put_cell (y := { x with life := .freed }) hx rfl] at hc
    obtain ⟨p, hp⟩ := I.stale l a hc
    rw [h] at hp
    rcases List.mem_cons.1 hp with e | e
    · cases e
    · exact ⟨p, e⟩
  · rw [put_cell (y := { x with life := .freed }) hx rfl] at hc
    exact I.noOwn l p a (by rw [h]; exact List.mem_cons_of_mem _ hm) hc
  · have hy' : (s.objs.set o { x with life := .freed })[a]? = some y := hy
    rw [put_get hx] at hy'
    by_cases e : a = o
    · rw [if_pos e] at hy'; cases hy'
      obtain ⟨l1, l2, l3, l4⟩ := I.left o x hx
      exact ⟨l1, (by intro h; cases h), fun _ => h0, l4⟩
    · rw [if_neg e] at hy'; exact I.left a y hy'

theorem inv_member {s : St} (I : Inv s) {o : Nat} {r : List Task} (h : s.stack = .fields o :: r) {x : Obj} (hx : s.objs[o]? = some x) {k : Nat} (h0 : x.left = k + 1) :
    Inv (St.reset { s with objs := s.objs.set o { x with left := k }, stack := .fields o :: r } (.fld o k) none) := by
  obtain ⟨⟨x', hx', hd⟩, _⟩ := fields_dying I h
  rw [hx] at hx'; cases hx'
  obtain ⟨l1, l2, l3, l4⟩ := I.left o x hx
  have hk : k < x.fields.length := by omega
  generalize hs1 : ({ s with objs := s.objs.set o { x with left := k }, stack := .fields o :: r } : St) = s1
  have c1 : ∀ l, s1.cell l = s.cell l := fun l => by rw [← hs1, put_cell (y := { x with left := k }) hx rfl]
  have o1 : ∀ a, s1.own a = s.own a := fun a => by rw [← hs1, put_own (y := { x with left := k }) hx rfl]
  have g1 : ∀ b : Nat, s1.objs[b]? = if b = o then some { x with left := k } else s.objs[b]? := fun b => by rw [← hs1]; exact put_get hx _ b
  have i1 : ∀ f a, s1.is f a = s.is f a := fun f a => by
    rw [← hs1, put_is hx]
    by_cases e : a = o
    · subst e; rw [if_pos rfl, is_some hx]
    · rw [if_neg e]
  have t1 : s1.stack = s.stack := by rw [← hs1, h]
  have u1 : s1.ub = s.ub := by rw [← hs1]
  have v1 : Valid s1 (.fld o k) := ⟨{ x with left := k }, by rw [g1]; simp, hk⟩
  have a1 : ∀ l p, Anchor s l p → Anchor s1 l p := fun l p a => by rw [← hs1]; exact put_anchor (y := { x with left := k }) hx rfl _ a fun _ _ => rfl
  have hns : ∀ c, s1.cell (.fld o k) ≠ .stale c := by
    intro c hc
    rw [c1] at hc
    obtain ⟨p, hp⟩ := I.stale _ c hc
    rw [h] at hp
    rcases List.mem_cons.1 hp with e | e
    · cases e
    · exact no_pending I h e
  unfold St.reset
  rcases ptr_cases (s1.cell (.fld o k)) with ⟨hc, hp⟩ | ⟨c, hc, hp⟩ | ⟨c, hc, hp⟩
  · rw [hp]
    refine ⟨fun a => ?_, fun a => ?_, ?_, fun l a hc => ?_, fun l p a hm hc' => ?_, fun a y hy => ?_, by show s1.ub ≠ _ ∧ s1.ub ≠ _; rw [u1]; exact I.ub⟩
    · show s1.own a + sumBy (Task.hold a) (_ :: s1.stack) = s1.is _ a
      rw [o1, t1, i1, ← I.eq]; simp [Task.hold, optHas]
    · show sumBy (Task.isFields a) (_ :: s1.stack) = s1.is _ a
      rw [t1, i1, ← I.fl]; simp [Task.isFields]
    · right
      rcases I.shape with ⟨ops, ho⟩ | ⟨l, p, b, an⟩
      · rw [h] at ho; cases ops <;> simp at ho
      · refine ⟨l, p, ?_, a1 l p an⟩
        show Busy l p (_ :: s1.stack)
        rw [t1, h]; rw [h] at b; exact .store o k b
    · have hc' : s1.cell l = .stale a := hc
      rw [c1] at hc'
      obtain ⟨p, hp⟩ := I.stale l a hc'
      exact ⟨p, List.mem_cons_of_mem _ (by rw [t1]; exact hp)⟩
    · have hc2 : s1.cell l = .own a := hc'
      rcases List.mem_cons.1 hm with e | e
      · cases e; rw [hc] at hc2; cases hc2
      · rw [t1] at e; rw [c1] at hc2; exact I.noOwn l p a e hc2
    · have hy' : s1.objs[a]? = some y := hy
      rw [g1] at hy'
      by_cases e : a = o
      · rw [if_pos e] at hy'; cases hy'
        refine ⟨by show k ≤ x.fields.length; omega, (fun h => by rw [show x.life = .alive from h] at hd; cases hd), (fun h => by rw [show x.life = .freed from h] at hd; cases hd), fun j c hj hjc => ?_⟩
        have hj' : k ≤ j := hj
        by_cases ej : j = k
        · subst ej
          have : s1.cell (.fld o j) = .own c := by
            rw [c1]; simp only [St.cell, hx]; exact getD_of hjc
          rw [hc] at this; cases this
        · exact l4 j c (by omega) hjc
      · rw [if_neg e] at hy'; exact I.left a y hy'
  · rw [hp]
    refine ⟨fun a => ?_, fun a => ?_, ?_, fun l a hc' => ?_, fun l p a hm hc' => ?_, fun a y hy => ?_, by
      show (s1.setCell _ _).ub ≠ _ ∧ (s1.setCell _ _).ub ≠ _; rw [ub_set, u1]; exact I.ub⟩
    · show (s1.setCell _ _).own a + sumBy (Task.hold a) (_ :: _ :: s1.stack) = (s1.setCell _ _).is _ a
      have e1 := own_set v1 (.stale c) a
      have := I.eq a
      rw [life_set, i1, t1]
      rw [hc, o1] at e1
      simp only [sumBy_cons, Task.hold, optHas, Cell.has] at *
      omega
    · show sumBy (Task.isFields a) (_ :: _ :: s1.stack) = (s1.setCell _ _).is _ a
      rw [life_set, t1, i1, ← I.fl]; simp [Task.isFields]
    · right
      rcases I.shape with ⟨ops, ho⟩ | ⟨l, p, b, an⟩
      · rw [h] at ho; cases ops <;> simp at ho
      · refine ⟨l, p, ?_, ?_⟩
        · show Busy l p (_ :: _ :: s1.stack)
          rw [t1, h]; rw [h] at b; exact .del c (.store o k b)
        · have an1 := a1 l p an
          cases l with
          | var i =>
            show i < (s1.setCell _ _).vars.length
            rw [vars_set]; exact an1
          | fld bo j =>
            obtain ⟨⟨z, hz, z1, z2⟩, z3⟩ := an1
            have hb : bo ≠ o := fun e => by
              subst e
              rw [g1] at hz; simp at hz; subst hz; rw [hd] at z1; cases z1
            refine ⟨⟨z, ?_, z1, z2⟩, ?_⟩
            · show (s1.setCell _ _).objs[bo]? = _
              simp only [St.setCell]
              split
              · simp [List.getElem?_set, Ne.symm hb, hz]
              · exact hz
            · show _ ∈ (s1.setCell _ _).vars ∨ _
              rw [vars_set]; exact z3
    · have hc2 : (s1.setCell (.fld o k) (.stale c)).cell l = .stale a := hc'
      rw [cell_set v1] at hc2
      by_cases e : l = .fld o k
      · exact ⟨none, by rw [e]; simp⟩
      · rw [if_neg e, c1] at hc2
        obtain ⟨p, hp⟩ := I.stale l a hc2
        exact ⟨p, List.mem_cons_of_mem _ (List.mem_cons_of_mem _ (by rw [t1]; exact hp))⟩
    · have hc2 : (s1.setCell (.fld o k) (.stale c)).cell l = .own a := hc'
      rw [cell_set v1] at hc2
      have hm' : Task.store l p ∈ Task.del c :: Task.store (.fld o k) none :: s1.stack := hm
      simp only [List.mem_cons, reduceCtorEq, false_or] at hm'
      rcases hm' with e | e
      · cases e; simp at hc2
      · by_cases e2 : l = .fld o k
        · rw [if_pos e2] at hc2; cases hc2
        · rw [if_neg e2, c1] at hc2; rw [t1] at e; exact I.noOwn l p a e hc2
    · have hy' : (s1.setCell (.fld o k) (.stale c)).objs[a]? = some y := hy
      obtain ⟨z, hz, e1, e2, _, e3, e4, e5⟩ := obj_set hy'
      rw [g1] at hz
      by_cases e : a = o
      · rw [if_pos e] at hz; cases hz
        subst e
        simp only at e1 e2 e3 e4
        refine ⟨by omega, (fun h => by rw [e1, hd] at h; cases h), (fun h => by rw [e1, hd] at h; cases h), fun j d hj hjc => ?_⟩
        by_cases ej : j = k
        · subst ej
          have := e5 j rfl _ hjc; cases this
        · rw [e4 j (fun h => ej (by cases h; rfl))] at hjc
          exact l4 j d (by omega) hjc
      · rw [if_neg e] at hz
        obtain ⟨q1, q2, q3, q4⟩ := I.left a z hz
        refine ⟨by omega, fun h => by rw [e2, e3]; exact q2 (e1 ▸ h), fun h => by rw [e2]; exact q3 (e1 ▸ h), fun j d hj hjc => ?_⟩
        rw [e4 j (fun h => e (by cases h; rfl))] at hjc
        exact q4 j d (by omega) hjc
  · exact absurd hc (hns c)

theorem setCell_invalid {s : St} {l : Loc} (v : ¬ Valid s l) (c : Cell) : s.setCell l c = s := by
  cases l with
  | var i =>
    have : s.vars.length ≤ i := Nat.le_of_not_lt v
    simp [St.setCell, List.set_eq_of_length_le this]
  | fld o k =>
    simp only [St.setCell]
    split
    · rename_i x hx
      have : x.fields.length ≤ k := Nat.le_of_not_lt fun hk => v ⟨x, hx, hk⟩
      rw [List.set_eq_of_length_le this]
      have : s.objs.set o { x with fields := x.fields } = s.objs := by
        apply List.ext_getElem?
        intro b
        rw [put_get hx]
        by_cases e : b = o
        · subst e; rw [if_pos rfl, hx]
        · rw [if_neg e]
      rw [this]
    · rfl

theorem cell_invalid {s : St} {l : Loc} (v : ¬ Valid s l) : s.cell l = .null := by
  cases l with
  | var i =>
    have : s.vars.length ≤ i := Nat.le_of_not_lt v
    simp [St.cell, List.getElem?_eq_none this]
  | fld o k =>
    simp only [St.cell]
    split
    · rename_i x hx
      have : x.fields.length ≤ k := Nat.le_of_not_lt fun hk => v ⟨x, hx, hk⟩
      simp [List.getElem?_eq_none this]
    · rfl

/-- the store at the end of a `Reset`; all that is needed of the location -/
theorem inv_store {s : St} (I : Inv s) {l : Loc} {p : Option Nat} {r : List Task} (h : s.stack = .store l p :: r) (hv : Valid s l ∨ p = none)
    (hleft : ∀ o k x, l = .fld o k → s.objs[o]? = some x → p ≠ none → x.life = .alive)
    (hshape : (∃ ops : List Op, r = ops.map .op) ∨ ∃ l' q, Busy l' q r ∧ Anchor s l' q ∧ (∃ o k x, l = .fld o k ∧ s.objs[o]? = some x ∧ x.life = .dying)) :
    Inv { s.setCell l (Cell.make p) with stack := r } := by
  have hown : ∀ a, (s.setCell l (Cell.make p)).own a = s.own a + optHas a p := by
    intro a
    have hz : (s.cell l).has a = 0 := by
      cases hc : s.cell l with
      | null => rfl
      | own c => exact absurd hc (I.noOwn l p c (by rw [h]; simp))
      | stale c => rfl
    by_cases v : Valid s l
    · have := own_set v (Cell.make p) a
      rw [has_make] at this; omega
    · rcases hv with hv | hv
      · exact absurd hv v
      · subst hv; rw [setCell_invalid v]; rfl
  have hcell : ∀ m, (s.setCell l (Cell.make p)).cell m = if m = l then Cell.make p else s.cell m := by
    intro m
    by_cases v : Valid s l
    · exact cell_set v _ m
    · rcases hv with hv | hv
      · exact absurd hv v
      · subst hv; rw [setCell_invalid v]
        by_cases e : m = l
        · rw [if_pos e, e]; exact cell_invalid v
        · rw [if_neg e]
  refine ⟨fun a => ?_, fun a => ?_, ?_, fun m a hc => ?_, fun m q a hm hc => ?_, fun a y hy => ?_, by
    show (s.setCell _ _).ub ≠ _ ∧ (s.setCell _ _).ub ≠ _; rw [ub_set]; exact I.ub⟩
  · show (s.setCell _ _).own a + _ = (s.setCell _ _).is _ a
    rw [hown, life_set, ← I.eq, h]
    simp only [sumBy_cons, Task.hold]; omega
  · show _ = (s.setCell _ _).is _ a
    rw [life_set, ← I.fl, h]; simp [Task.isFields]
  · rcases hshape with ho | ⟨l', q, b, an, o, k, x, hl, hx, hd⟩
    · exact .inl ho
    · right
      refine ⟨l', q, b, ?_⟩
      subst hl
      cases l' with
      | var i =>
        show i < (s.setCell _ _).vars.length
        rw [vars_set]; exact an
      | fld bo j =>
        obtain ⟨⟨z, hz, z1, z2⟩, z3⟩ := an
        have hb : bo ≠ o := fun e => by
          subst e
          rw [hx] at hz; cases hz; rw [hd] at z1; cases z1
        refine ⟨⟨z, ?_, z1, z2⟩, ?_⟩
        · show (s.setCell _ _).objs[bo]? = _
          simp only [St.setCell]
          split
          · simp [List.getElem?_set, Ne.symm hb, hz]
          · exact hz
        · show _ ∈ (s.setCell _ _).vars ∨ _
          rw [vars_set]; exact z3
  · have hc' : (s.setCell l (Cell.make p)).cell m = .stale a := hc
    rw [hcell] at hc'
    by_cases e : m = l
    · rw [if_pos e] at hc'; cases p <;> cases hc'
    · rw [if_neg e] at hc'
      obtain ⟨q, hq⟩ := I.stale m a hc'
      rw [h] at hq
      rcases List.mem_cons.1 hq with e2 | e2
      · cases e2; exact absurd rfl e
      · exact ⟨q, e2⟩
  · have hc' : (s.setCell l (Cell.make p)).cell m = .own a := hc
    rw [hcell] at hc'
    have hm' : Task.store m q ∈ r := hm
    by_cases e : m = l
    · rw [if_pos e] at hc'
      rcases hshape with ⟨ops, ho⟩ | ⟨l', q', b, an, o, k, x, hl, hx, hd⟩
      · rw [ho] at hm'; exact no_store_ops hm'
      · have : p ≠ none := fun e => by subst e; cases hc'
        have := hleft o k x hl hx this
        rw [hd] at this; cases this
    · rw [if_neg e] at hc'
      exact I.noOwn m q a (by rw [h]; exact List.mem_cons_of_mem _ hm') hc'
  · have hy' : (s.setCell l (Cell.make p)).objs[a]? = some y := hy
    obtain ⟨z, hz, e1, e2, _, e3, e4, e5⟩ := obj_set hy'
    obtain ⟨q1, q2, q3, q4⟩ := I.left a z hz
    refine ⟨by omega, fun h => by rw [e2, e3]; exact q2 (e1 ▸ h), fun h => by rw [e2]; exact q3 (e1 ▸ h), fun j d hj hjc => ?_⟩
    by_cases e : .fld a j = l
    · have hd := e5 j e _ hjc
      have hp : p ≠ none := fun e => by subst e; cases hd
      have := q2 (hleft a j z e.symm hz hp)
      have : j < y.fields.length := by
        rcases Nat.lt_or_ge j y.fields.length with h' | h'
        · exact h'
        · rw [List.getElem?_eq_none h'] at hjc; cases hjc
      omega
    · rw [e4 j e] at hjc
      exact q4 j d (by omega) hjc

theorem inv_step {C : Nat → Cls} (hC : ∀ c, (C c).dtor = []) {s : St} (I : Inv s) : Inv (s.step C) := by
  unfold St.step
  by_cases hu : s.ub ≠ none
  · rw [if_pos hu]; exact I
  rw [if_neg hu]
  cases h : s.stack with
  | nil => exact I
  | cons t r =>
    cases t with
    | op q =>
      dsimp only
      rcases I.shape with ⟨ops, ho⟩ | ⟨l, p, b, _⟩
      · rw [h] at ho
        cases ops with
        | nil => cases ho
        | cons q' ops =>
          simp only [List.map_cons, List.cons.injEq] at ho
          have R := I.rest (ops := q' :: ops) (by rw [h]; simp [ho])
          exact inv_exec (s := { s with stack := r }) (ops := ops) ⟨ho.2, R.eq, R.fl, R.stale, R.left, R.ub⟩ q
      · rw [h] at b; exact (busy_ne_op b).elim
    | del o =>
      dsimp only
      obtain ⟨x, hx, ha⟩ := hold_pos I h
      simp only [hx, ha, if_true, hC, List.map_nil, List.nil_append]
      exact inv_del I h hx ha
    | fields o =>
      dsimp only
      obtain ⟨⟨x, hx, hd⟩, _⟩ := fields_dying I h
      simp only [hx]
      cases hl : x.left with
      | zero => have := inv_freed I h hx hl; rw [hl] at this; exact this
      | succ k => exact inv_member I h hx hl
    | store l p =>
      rcases I.shape with ⟨ops, ho⟩ | ⟨l', q, b, an⟩
      · rw [h] at ho; cases ops <;> simp at ho
      · rw [h] at b
        cases b with
        | base ops =>
          have key : Inv { s.setCell l (Cell.make p) with stack := ops.map .op } :=
            inv_store I h (.inl an.valid) (fun o k x hl hx _ => by
              subst hl
              obtain ⟨⟨z, hz, z1, _⟩, _⟩ := an
              rw [hx] at hz; cases hz; exact z1) (.inl ⟨ops, rfl⟩)
          cases l with
          | var i => exact key
          | fld o k =>
            obtain ⟨⟨z, hz, z1, _⟩, _⟩ := an
            simp only [hz, z1]
            exact key
        | store o k b =>
          rename_i r'
          have hd : ∃ x, s.objs[o]? = some x ∧ x.life = .dying := by
            apply is_of
            have := I.fl o
            rw [h] at this
            simp only [sumBy_cons, Task.isFields, if_true] at this
            omega
          obtain ⟨x, hx, hd⟩ := hd
          have key := inv_store I h (.inr rfl) (fun _ _ _ _ _ h => absurd rfl h) (.inr ⟨l', q, b, an, o, k, x, rfl, hx, hd⟩)
          simp only [hx, hd]
          exact key

theorem inv_reach {C : Nat → Cls} (hC : ∀ c, (C c).dtor = []) {s : St} (h : Reach C s) : Inv s := by
  induction h with
  | init n prog =>
    refine Rest.inv (ops := prog) ⟨rfl, fun o => ?_, fun o => rfl, fun l o hc => ?_, by simp, by simp⟩
    · show sumBy (Cell.has o) (List.replicate n .null) + 0 = 0
      rw [has_null]
    · cases l with
      | var i =>
        simp only [St.cell, List.getD_eq_getElem?_getD, List.getElem?_replicate] at hc
        split at hc <;> cases hc
      | fld a k => simp [St.cell] at hc
  | step _ ih => exact inv_step hC ih

end Verif.UniqueGraph
