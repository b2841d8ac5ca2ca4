import Verif.UniqueGraph.Step
/-!
# What one assignment to a `UniquePtr` destroys
-/
namespace Verif.UniqueGraph
open Verif.Common

/-- `a` has a member that points to `b` -/
def Owns (s : St) (a b : Nat) : Prop := ∃ k, (s.cell (.fld a k)).ptr = some b

/-- `o` is what the handle at `l` points to, or owned by that through members -/
inductive Under (s : St) (l : Loc) : Nat → Prop
  | root {o : Nat} : (s.cell l).ptr = some o → Under s l o
  | child {a o : Nat} : Under s l a → Owns s a o → Under s l o

theorem valid_of_ptr {s : St} {l : Loc} {o : Nat} (h : (s.cell l).ptr = some o) : Valid s l := by
  by_cases v : Valid s l
  · exact v
  · rw [cell_invalid v] at h; cases h

theorem own_pos {s : St} {l : Loc} {o : Nat} (h : s.cell l = .own o) : 0 < s.own o := by
  have v : Valid s l := valid_of_ptr (o := o) (by rw [h]; rfl)
  have := own_set v .null o
  rw [h] at this
  simp only [Cell.has, if_true] at this
  omega

theorem own_two {s : St} {l m : Loc} {o : Nat} (hl : s.cell l = .own o) (hm : s.cell m = .own o) (hne : l ≠ m) : 2 ≤ s.own o := by
  have v : Valid s m := valid_of_ptr (o := o) (by rw [hm]; rfl)
  have e := own_set v .null o
  have hp : 0 < (s.setCell m .null).own o := by
    apply own_pos (l := l)
    rw [cell_set v, if_neg hne]; exact hl
  rw [hm] at e
  simp only [Cell.has, if_true] at e
  omega

theorem has_pos {o : Nat} {l : List Cell} (h : 0 < sumBy (Cell.has o) l) : ∃ i : Nat, l[i]? = some (.own o) := by
  induction l with
  | nil => simp at h
  | cons c l ih =>
    rw [sumBy_cons] at h
    by_cases hc : c = .own o
    · exact ⟨0, by rw [hc]; rfl⟩
    · have : Cell.has o c = 0 := by
        cases c with
        | own a =>
          have : a ≠ o := fun e => hc (by rw [e])
          simp [Cell.has, this]
        | _ => rfl
      obtain ⟨i, hi⟩ := ih (by omega)
      exact ⟨i + 1, by simpa using hi⟩

theorem obj_pos {o : Nat} {l : List Obj} (h : 0 < sumBy (Obj.has o) l) : ∃ (a : Nat) (x : Obj), l[a]? = some x ∧ 0 < sumBy (Cell.has o) x.fields := by
  induction l with
  | nil => simp at h
  | cons c l ih =>
    rw [sumBy_cons] at h
    by_cases hc : 0 < Obj.has o c
    · exact ⟨0, c, rfl, hc⟩
    · obtain ⟨i, x, hi, hx⟩ := ih (by omega)
      exact ⟨i + 1, x, by simpa using hi, hx⟩

theorem owner_of {s : St} {o : Nat} (h : 0 < s.own o) : ∃ l, s.cell l = .own o := by
  unfold St.own at h
  by_cases hv : 0 < sumBy (Cell.has o) s.vars
  · obtain ⟨i, hi⟩ := has_pos hv
    exact ⟨.var i, getD_of hi⟩
  · obtain ⟨a, x, ha, hx⟩ := obj_pos (o := o) (l := s.objs) (by omega)
    obtain ⟨k, hk⟩ := has_pos hx
    exact ⟨.fld a k, by simp only [St.cell, ha]; exact getD_of hk⟩

/-- the state while the objects under `l` are destroyed; `s1` is the state before -/
structure Deleting (s1 : St) (l : Loc) (p : Option Nat) (ops : List Op) (s : St) : Prop where
  inv : Inv s
  busy : Busy l p s.stack
  suffix : (.store l p :: ops.map .op) <:+ s.stack
  anchor : Anchor s l p
  ptr : ∀ m o, (s.cell m).ptr = some o → (s1.cell m).ptr = some o
  tasks : ∀ c, .del c ∈ s.stack ∨ .fields c ∈ s.stack → Under s1 l c
  life : ∀ o f, ¬ Under s1 l o → s.is f o = s1.is f o
  cell : ∀ m, m ≠ l → (∀ o k, m = .fld o k → ¬ Under s1 l o) → s.cell m = s1.cell m
  len : s.objs.length = s1.objs.length
  ub : s.ub = none

/-- what is left to destroy -/
def Obj.todo (x : Obj) : Nat := 4 * x.left + if x.life = .alive then 3 else 0

def Task.todo : Task → Nat
  | .op _ => 0
  | _ => 1

def St.todo (s : St) : Nat := sumBy Obj.todo s.objs + sumBy Task.todo s.stack

theorem todo_set {s : St} (l : Loc) (c : Cell) : sumBy Obj.todo (s.setCell l c).objs = sumBy Obj.todo s.objs := by
  cases l with
  | var i => rfl
  | fld o k =>
    simp only [St.setCell]
    split
    · rename_i x hx
      have := sumBy_set Obj.todo s.objs o { x with fields := x.fields.set k c } x hx
      simp only [Obj.todo] at this
      show sumBy Obj.todo (s.objs.set o _) = _
      omega
    · rfl

theorem len_set (s : St) (l : Loc) (c : Cell) : (s.setCell l c).objs.length = s.objs.length := by
  cases l with
  | var i => rfl
  | fld o k => simp only [St.setCell]; split <;> simp

theorem setCell_life_get {s : St} {l : Loc} {c : Cell} {o : Nat} {x : Obj} (h : s.objs[o]? = some x) : ∃ y, (s.setCell l c).objs[o]? = some y ∧ y.life = x.life := by
  cases hy : (s.setCell l c).objs[o]? with
  | none =>
    have := len_set s l c
    have h1 := lt_of h
    rw [List.getElem?_eq_none_iff] at hy; omega
  | some y =>
    obtain ⟨z, hz, e, _⟩ := obj_set hy
    rw [h] at hz; cases hz; exact ⟨y, rfl, e⟩

/-- after the final store -/
structure Deleted (s1 : St) (l : Loc) (p : Option Nat) (ops : List Op) (s : St) : Prop where
  rest : Rest s ops
  handle : s.cell l = Cell.make p
  life : ∀ o f, ¬ Under s1 l o → s.is f o = s1.is f o
  freed : ∀ o, Under s1 l o → ∃ x, s.objs[o]? = some x ∧ x.life = .freed
  cell : ∀ m, m ≠ l → (∀ o k, m = .fld o k → ¬ Under s1 l o) → s.cell m = s1.cell m
  len : s.objs.length = s1.objs.length
  ub : s.ub = none

/-- the state in which `Reset` starts: `p` is owned by nobody but the call -/
structure Start (s1 : St) (l : Loc) (p : Option Nat) (ops : List Op) : Prop where
  stack : s1.stack = ops.map .op
  eq : ∀ o, s1.own o + optHas o p = s1.is .alive o
  fl : ∀ o, s1.is .dying o = 0
  stale : ∀ l o, s1.cell l ≠ .stale o
  anchor : Anchor s1 l p
  left : ∀ (o : Nat) (x : Obj), s1.objs[o]? = some x → x.left ≤ x.fields.length ∧ (x.life = .alive → x.left = x.fields.length) ∧ (x.life = .freed → x.left = 0)
    ∧ ∀ k c, x.left ≤ k → x.fields[k]? ≠ some (.own c)
  ub : s1.ub = none

theorem Start.inv {s1 : St} {l : Loc} {p : Option Nat} {ops : List Op} (S : Start s1 l p ops) : Inv (s1.reset l p) :=
  inv_reset S.stack S.eq S.fl S.stale S.anchor S.left (by rw [S.ub]; simp)

theorem under_own {s1 : St} {l : Loc} {p : Option Nat} {ops : List Op} (S : Start s1 l p ops) {o : Nat} (h : Under s1 l o) :
    ∃ m, s1.cell m = .own o ∧ (m = l ∨ ∃ a k, m = .fld a k ∧ Under s1 l a) := by
  have key : ∀ m, (s1.cell m).ptr = some o → s1.cell m = .own o := by
    intro m hm
    rcases ptr_cases (s1.cell m) with ⟨hc, hp⟩ | ⟨c, hc, hp⟩ | ⟨c, hc, hp⟩
    · rw [hp] at hm; cases hm
    · rw [hp] at hm; cases hm; exact hc
    · exact absurd hc (S.stale m c)
  cases h with
  | root h => exact ⟨l, key l h, .inl rfl⟩
  | child ha ho =>
    rename_i a
    obtain ⟨k, hk⟩ := ho
    exact ⟨_, key _ hk, .inr ⟨a, k, rfl, ha⟩⟩

theorem under_one {s1 : St} {l : Loc} {p : Option Nat} {ops : List Op} (S : Start s1 l p ops) {o : Nat} (h : Under s1 l o) : p ≠ some o ∧ s1.own o = 1 := by
  obtain ⟨m, hm, _⟩ := under_own S h
  have := own_pos hm
  have e := S.eq o
  have := is_le s1 .alive o
  refine ⟨fun hp => ?_, by omega⟩
  rw [hp] at e
  simp only [optHas, if_true] at e
  omega

theorem under_len {s1 : St} {l : Loc} {p : Option Nat} {ops : List Op} (S : Start s1 l p ops) {o : Nat} (h : Under s1 l o) : o < s1.objs.length := by
  have := (under_one S h).2
  have e := S.eq o
  obtain ⟨x, hx, _⟩ := is_of (s := s1) (f := .alive) (o := o) (by omega)
  exact lt_of hx

/-- the last store: everything under `l` has been freed by then -/
theorem deleted_of {s1 s : St} {l : Loc} {p : Option Nat} {ops : List Op} (S : Start s1 l p ops) (D : Deleting s1 l p ops s)
    (h : s.stack = .store l p :: ops.map .op) (I' : Inv { s.setCell l (Cell.make p) with stack := ops.map .op }) :
    Deleted s1 l p ops { s.setCell l (Cell.make p) with stack := ops.map .op } := by
  have R := I'.rest (ops := ops) rfl
  have v := D.anchor.valid
  generalize hs' : ({ s.setCell l (Cell.make p) with stack := ops.map .op } : St) = s' at *
  have cl : ∀ m, s'.cell m = if m = l then Cell.make p else s.cell m := fun m => by
    rw [← hs']; exact cell_set v _ m
  have lf : ∀ f o, s'.is f o = s.is f o := fun f o => by rw [← hs']; exact life_set s l _ f o
  have ln : s'.objs.length = s1.objs.length := by
    rw [← hs', ← D.len]; exact len_set s l _
  refine ⟨R, by rw [cl, if_pos rfl], fun o f hn => by rw [lf]; exact D.life o f hn, fun o hu => ?_, fun m hm hn => by rw [cl, if_neg hm]; exact D.cell m hm hn, ln, ?_⟩
  · -- by the way down from the root
    have alive_no : ∀ o, Under s1 l o → s'.is .alive o = 0 := by
      intro o hu
      induction hu with
      | @root o hr =>
        apply Classical.byContradiction
        intro hne
        have := R.eq o
        obtain ⟨m, hm⟩ := owner_of (s := s') (o := o) (by omega)
        have hu : Under s1 l o := .root hr
        rw [cl] at hm
        by_cases e : m = l
        · rw [if_pos e] at hm
          have : p = some o := by cases p <;> cases hm; rfl
          exact (under_one S hu).1 this
        · rw [if_neg e] at hm
          have h1 := D.ptr m o (by rw [hm]; rfl)
          have h2 : s1.cell m = .own o := by
            rcases ptr_cases (s1.cell m) with ⟨hc, hp⟩ | ⟨c, hc, hp⟩ | ⟨c, hc, hp⟩
            · rw [hp] at h1; cases h1
            · rw [hp] at h1; cases h1; exact hc
            · exact absurd hc (S.stale m c)
          have h3 : s1.cell l = .own o := by
            rcases ptr_cases (s1.cell l) with ⟨hc, hp⟩ | ⟨c, hc, hp⟩ | ⟨c, hc, hp⟩
            · rw [hp] at hr; cases hr
            · rw [hp] at hr; cases hr; exact hc
            · exact absurd hc (S.stale l c)
          have := own_two h2 h3 e
          have := (under_one S hu).2
          omega
      | @child a o ha ho ih =>
        apply Classical.byContradiction
        intro hne
        have := R.eq o
        obtain ⟨m, hm⟩ := owner_of (s := s') (o := o) (by omega)
        have hu : Under s1 l o := .child ha ho
        obtain ⟨k, hk⟩ := ho
        have hm0 := hm
        rw [cl] at hm
        by_cases e : m = l
        · rw [if_pos e] at hm
          have : p = some o := by cases p <;> cases hm; rfl
          exact (under_one S hu).1 this
        · rw [if_neg e] at hm
          have h1 := D.ptr m o (by rw [hm]; rfl)
          have h2 : s1.cell m = .own o := by
            rcases ptr_cases (s1.cell m) with ⟨hc, hp⟩ | ⟨c, hc, hp⟩ | ⟨c, hc, hp⟩
            · rw [hp] at h1; cases h1
            · rw [hp] at h1; cases h1; exact hc
            · exact absurd hc (S.stale m c)
          have h3 : s1.cell (.fld a k) = .own o := by
            rcases ptr_cases (s1.cell (.fld a k)) with ⟨hc, hp⟩ | ⟨c, hc, hp⟩ | ⟨c, hc, hp⟩
            · rw [hp] at hk; cases hk
            · rw [hp] at hk; cases hk; exact hc
            · exact absurd hc (S.stale _ c)
          by_cases e2 : m = .fld a k
          · subst e2
            -- `a` is not alive: its members are gone
            simp only [St.cell] at hm0
            cases hx : s'.objs[a]? with
            | none => rw [hx] at hm0; cases hm0
            | some x =>
              rw [hx] at hm0
              have hl := R.left a x hx
              have h4 := R.fl a
              rw [is_some hx] at ih h4
              have hf : x.life = .freed := by
                cases hxl : x.life <;> simp [hxl] at ih h4 ⊢
              have h5 := hl.2.2.1 hf
              have hkk : x.fields[k]? = some (.own o) := by
                have hm1 : x.fields.getD k .null = .own o := hm0
                rw [List.getD_eq_getElem?_getD] at hm1
                cases hi : x.fields[k]? with
                | none => rw [hi] at hm1; cases hm1
                | some c => rw [hi] at hm1; cases hm1; rfl
              exact hl.2.2.2 k o (by omega) hkk
          · have := own_two h2 h3 e2
            have := (under_one S hu).2
            omega
    have hlen := under_len S hu
    have hx : s'.objs[o]? = some (s'.objs[o]'(by omega)) := List.getElem?_eq_getElem (by omega)
    refine ⟨_, hx, ?_⟩
    have h1 := alive_no o hu
    have h2 := R.fl o
    rw [is_some hx] at h1 h2
    generalize (s'.objs[o]'(by omega)).life = f at h1 h2
    cases f <;> simp at h1 h2 ⊢
  · rw [← hs']; show (s.setCell _ _).ub = none; rw [ub_set]; exact D.ub

theorem suffix_tail {t : Task} {a r : List Task} (h : a <:+ t :: r) (hne : a ≠ t :: r) : a <:+ r := by
  rcases List.suffix_cons_iff.1 h with e | e
  · exact absurd e hne
  · exact e

/-- one step of the destruction -/
theorem deleting_step {C : Nat → Cls} (hC : ∀ c, (C c).dtor = []) {s1 s : St} {l : Loc} {p : Option Nat} {ops : List Op} (S : Start s1 l p ops) (D : Deleting s1 l p ops s) :
    (Deleting s1 l p ops (s.step C) ∧ (s.step C).todo < s.todo) ∨ Deleted s1 l p ops (s.step C) := by
  have I' := inv_step hC D.inv
  have hub : ¬ (s.ub ≠ none) := fun h => h D.ub
  have hstep : s.step C = (match s.stack with
      | [] => s
      | .op q :: r => St.exec C { s with stack := r } q
      | .del o :: r => match s.objs[o]? with
        | none => { s with ub := some .twice }
        | some x =>
          if x.life = .alive then
            { s with objs := s.objs.set o { x with life := .dying }, stack := (C x.cls).dtor.map .op ++ .fields o :: r }
          else { s with ub := some .twice }
      | .fields o :: r => match s.objs[o]? with
        | none => { s with ub := some .dangling }
        | some x => match x.left with
          | 0 => { s with objs := s.objs.set o { x with life := .freed }, stack := r }
          | k + 1 => St.reset { s with objs := s.objs.set o { x with left := k }, stack := .fields o :: r } (.fld o k) none
      | .store l p :: r => match l with
        | .var _ => { s.setCell l (Cell.make p) with stack := r }
        | .fld o _ => match s.objs[o]? with
          | none => { s with ub := some .dangling }
          | some x => if x.life = .freed then { s with ub := some .dangling } else { s.setCell l (Cell.make p) with stack := r }) := by
    unfold St.step; rw [if_neg hub]; rfl
  rw [hstep] at I' ⊢
  have b := D.busy
  have hsuf := D.suffix
  cases h : s.stack with
  | nil => rw [h] at b; cases b
  | cons t r =>
    rw [h] at I' b hsuf
    cases t with
    | op q => exact (busy_ne_op b).elim
    | del o =>
      left
      have hu : Under s1 l o := D.tasks o (.inl (by rw [h]; simp))
      obtain ⟨x, hx, ha⟩ := hold_pos D.inv h
      simp only [hx, ha, if_true, hC, List.map_nil, List.nil_append] at I' ⊢
      have b' : Busy l p r := by cases b; assumption
      have an : Anchor { s with objs := s.objs.set o { x with life := .dying }, stack := .fields o :: r } l p := by
        refine put_anchor (y := { x with life := .dying }) hx rfl _ D.anchor fun k hl => ?_
        exfalso
        subst hl
        have hown := (under_one S hu).2
        obtain ⟨_, h3⟩ := D.anchor
        have eo := D.inv.eq o
        rw [h] at eo
        simp only [sumBy_cons, Task.hold, if_true] at eo
        have := is_le s .alive o
        rcases h3 with h3 | h3
        · have := le_sumBy_of_mem (Cell.has o) _ _ h3
          simp only [Cell.has, if_true, St.own] at this eo
          omega
        · exact (under_one S hu).1 h3
      refine ⟨⟨I', .fields o b', ?_, an, fun m a hm => ?_, fun c hc => ?_, fun a f hn => ?_, fun m hm hn => ?_, by simpa using D.len, D.ub⟩, ?_⟩
      · exact List.suffix_cons_iff.2 (.inr (suffix_tail hsuf (by simp)))
      · rw [put_cell (y := { x with life := .dying }) hx rfl] at hm; exact D.ptr m a hm
      · simp only [List.mem_cons, reduceCtorEq, false_or, Task.fields.injEq] at hc
        rcases hc with hc | hc | hc
        · exact D.tasks c (.inl (by rw [h]; exact List.mem_cons_of_mem _ hc))
        · subst hc; exact hu
        · exact D.tasks c (.inr (by rw [h]; exact List.mem_cons_of_mem _ hc))
      · rw [put_is hx]
        have : a ≠ o := fun e => hn (e ▸ hu)
        rw [if_neg this]; exact D.life a f hn
      · rw [put_cell (y := { x with life := .dying }) hx rfl]; exact D.cell m hm hn
      · have e := sumBy_set Obj.todo s.objs o { x with life := .dying } x hx
        simp only [St.todo, h, sumBy_cons, Task.todo]
        simp only [Obj.todo, ha, if_true, reduceCtorEq, if_false] at e
        omega
    | fields o =>
      left
      have hu : Under s1 l o := D.tasks o (.inr (by rw [h]; simp))
      obtain ⟨⟨x, hx, hd⟩, _⟩ := fields_dying D.inv h
      have b' := busy_tail b
      have hsuf' := suffix_tail hsuf (by simp)
      have hl_o : ∀ k, l ≠ .fld o k := by
        intro k e
        subst e
        obtain ⟨⟨z, hz, z1, _⟩, _⟩ := D.anchor
        rw [hx] at hz; cases hz; rw [hd] at z1; cases z1
      simp only [hx] at I' ⊢
      cases hl : x.left with
      | zero =>
        rw [hl] at I'
        dsimp only at I' ⊢
        rw [← hl] at I' ⊢
        have an : Anchor { s with objs := s.objs.set o { x with life := .freed }, stack := r } l p :=
          put_anchor (y := { x with life := .freed }) hx rfl _ D.anchor fun k e => absurd e (hl_o k)
        refine ⟨⟨I', b', hsuf', an, fun m a hm => ?_, fun c hc => ?_, fun a f hn => ?_, fun m hm hn => ?_, by simpa using D.len, D.ub⟩, ?_⟩
        · rw [put_cell (y := { x with life := .freed }) hx rfl] at hm; exact D.ptr m a hm
        · rcases hc with hc | hc
          · exact D.tasks c (.inl (by rw [h]; exact List.mem_cons_of_mem _ hc))
          · exact D.tasks c (.inr (by rw [h]; exact List.mem_cons_of_mem _ hc))
        · rw [put_is hx]
          have : a ≠ o := fun e => hn (e ▸ hu)
          rw [if_neg this]; exact D.life a f hn
        · rw [put_cell (y := { x with life := .freed }) hx rfl]; exact D.cell m hm hn
        · have e := sumBy_set Obj.todo s.objs o { x with life := .freed } x hx
          simp only [St.todo, h, sumBy_cons, Task.todo]
          simp only [Obj.todo, hd, reduceCtorEq, if_false] at e
          omega
      | succ k =>
        rw [hl] at I'
        dsimp only at I' ⊢
        have hk : k < x.fields.length := by have := (D.inv.left o x hx).1; omega
        generalize hs2 : ({ s with objs := s.objs.set o { x with left := k }, stack := .fields o :: r } : St) = s2 at I' ⊢
        have c2 : ∀ m, s2.cell m = s.cell m := fun m => by rw [← hs2, put_cell (y := { x with left := k }) hx rfl]
        have i2 : ∀ f a, s2.is f a = s.is f a := fun f a => by
          rw [← hs2, put_is hx]
          by_cases e : a = o
          · subst e; rw [if_pos rfl, is_some hx]
          · rw [if_neg e]
        have t2 : s2.stack = s.stack := by rw [← hs2, h]
        have n2 : s2.objs.length = s.objs.length := by rw [← hs2]; simp
        have u2 : s2.ub = s.ub := by rw [← hs2]
        have a2 : Anchor s2 l p := by rw [← hs2]; exact put_anchor (y := { x with left := k }) hx rfl _ D.anchor fun _ _ => rfl
        have v2 : Valid s2 (.fld o k) := by
          refine ⟨{ x with left := k }, ?_, hk⟩
          rw [← hs2]; show (s.objs.set o _)[o]? = _; rw [put_get hx]; simp
        have m2 : sumBy Obj.todo s2.objs + 4 = sumBy Obj.todo s.objs := by
          have e := sumBy_set Obj.todo s.objs o { x with left := k } x hx
          have f1 : Obj.todo { x with left := k } = 4 * k := by simp [Obj.todo, hd]
          have f2 : Obj.todo x = 4 * (k + 1) := by simp [Obj.todo, hd, hl]
          rw [f1, f2] at e
          rw [← hs2]
          show sumBy Obj.todo (s.objs.set o _) + 4 = _
          omega
        have nl : l ≠ .fld o k := hl_o k
        unfold St.reset at I' ⊢
        rcases ptr_cases (s2.cell (.fld o k)) with ⟨hc, hp⟩ | ⟨c, hc, hp⟩ | ⟨c, hc, hp⟩
        · rw [hp] at I' ⊢
          dsimp only at I' ⊢
          refine ⟨⟨I', ?_, ?_, a2, fun m a hm => ?_, fun c hc => ?_, fun a f hn => ?_, fun m hm hn => ?_, by show s2.objs.length = _; rw [n2]; exact D.len, by show s2.ub = none; rw [u2]; exact D.ub⟩, ?_⟩
          · show Busy l p (_ :: s2.stack); rw [t2, h]; exact .store o k b
          · show _ <:+ (_ :: s2.stack); rw [t2]; exact List.suffix_cons_iff.2 (.inr D.suffix)
          · have hm' : (s2.cell m).ptr = some a := hm
            rw [c2] at hm'; exact D.ptr m a hm'
          · rw [t2] at hc
            simp only [List.mem_cons, reduceCtorEq, false_or] at hc
            exact D.tasks c hc
          · show s2.is f a = _; rw [i2]; exact D.life a f hn
          · show s2.cell m = _; rw [c2]; exact D.cell m hm hn
          · simp only [St.todo, sumBy_cons, Task.todo, t2]; omega
        · rw [hp] at I' ⊢
          dsimp only at I' ⊢
          have huc : Under s1 l c := by
            refine .child hu ⟨k, D.ptr _ _ ?_⟩
            rw [← c2, hc]; rfl
          refine ⟨⟨I', ?_, ?_, ?_, fun m a hm => ?_, fun d hd => ?_, fun a f hn => ?_, fun m hm hn => ?_, by
            show (s2.setCell _ _).objs.length = _; rw [len_set, n2]; exact D.len, by show (s2.setCell _ _).ub = none; rw [ub_set, u2]; exact D.ub⟩, ?_⟩
          · show Busy l p (_ :: _ :: s2.stack); rw [t2, h]; exact .del c (.store o k b)
          · show _ <:+ (_ :: _ :: s2.stack); rw [t2]
            exact List.suffix_cons_iff.2 (.inr (List.suffix_cons_iff.2 (.inr D.suffix)))
          · cases l with
            | var i =>
              show i < (s2.setCell _ _).vars.length
              rw [vars_set]; exact a2
            | fld bo j =>
              obtain ⟨⟨z, hz, z1, z2⟩, z3⟩ := a2
              have hb : bo ≠ o := fun e => hl_o j (by rw [e])
              refine ⟨⟨z, ?_, z1, z2⟩, ?_⟩
              · show (s2.setCell _ _).objs[bo]? = _
                simp only [St.setCell]
                split
                · simp [List.getElem?_set, Ne.symm hb, hz]
                · exact hz
              · show _ ∈ (s2.setCell _ _).vars ∨ _
                rw [vars_set]; exact z3
          · have hm' : ((s2.setCell (.fld o k) (.stale c)).cell m).ptr = some a := hm
            rw [cell_set v2] at hm'
            by_cases e : m = .fld o k
            · rw [if_pos e] at hm'
              cases hm'
              rw [e]; exact D.ptr _ _ (by rw [← c2, hc]; rfl)
            · rw [if_neg e, c2] at hm'; exact D.ptr m a hm'
          · rw [t2] at hd
            simp only [List.mem_cons, reduceCtorEq, false_or, Task.del.injEq] at hd
            rcases hd with (hd | hd) | hd
            · subst hd; exact huc
            · exact D.tasks d (.inl hd)
            · exact D.tasks d (.inr hd)
          · show (s2.setCell _ _).is f a = _; rw [life_set, i2]; exact D.life a f hn
          · show (s2.setCell _ _).cell m = _
            rw [cell_set v2]
            by_cases e : m = .fld o k
            · exact absurd hu (hn o k e)
            · rw [if_neg e, c2]; exact D.cell m hm hn
          · simp only [St.todo, sumBy_cons, Task.todo, t2]
            have := todo_set (s := s2) (.fld o k) (.stale c)
            omega
        · exfalso
          rw [c2] at hc
          obtain ⟨q, hq⟩ := D.inv.stale _ c hc
          rw [h] at hq
          rcases List.mem_cons.1 hq with e | e
          · cases e
          · exact no_pending D.inv h e
    | store m q =>
      cases b with
      | base ops' =>
        right
        have ho : ops'.map Task.op = ops.map Task.op := by
          rcases List.suffix_cons_iff.1 hsuf with e | e
          · simpa using e.symm
          · have := List.IsSuffix.subset e List.mem_cons_self
            exact (no_store_ops this).elim
        rw [ho] at h I'
        rw [ho]
        cases l with
        | var i => exact deleted_of S D h I'
        | fld o k =>
          obtain ⟨⟨z, hz, z1, _⟩, _⟩ := D.anchor
          simp only [hz, z1, reduceCtorEq, if_false] at I' ⊢
          exact deleted_of S D h I'
      | store o k b =>
        rename_i r'
        left
        have hu : Under s1 l o := D.tasks o (.inr (by rw [h]; simp))
        have hd : ∃ x, s.objs[o]? = some x ∧ x.life = .dying := by
          apply is_of
          have := D.inv.fl o
          rw [h] at this
          simp only [sumBy_cons, Task.isFields, if_true] at this
          omega
        obtain ⟨x, hx, hd⟩ := hd
        have hl_o : ∀ k, l ≠ .fld o k := by
          intro k e
          subst e
          obtain ⟨⟨z, hz, z1, _⟩, _⟩ := D.anchor
          rw [hx] at hz; cases hz; rw [hd] at z1; cases z1
        have hsuf' := suffix_tail hsuf (by
          intro e
          simp only [List.cons.injEq, Task.store.injEq] at e
          exact hl_o k e.1.1)
        have hcell : ∀ m, (s.setCell (.fld o k) (Cell.make none)).cell m = if m = .fld o k then .null else s.cell m := by
          intro m
          by_cases v : Valid s (.fld o k)
          · exact cell_set v _ m
          · rw [setCell_invalid v]
            by_cases e : m = .fld o k
            · rw [if_pos e, e]; exact cell_invalid v
            · rw [if_neg e]
        simp only [hx, hd, reduceCtorEq, if_false] at I' ⊢
        refine ⟨⟨I', b, hsuf', ?_, fun m a hm => ?_, fun d hd => ?_, fun a f hn => ?_, fun m hm hn => ?_, by
          show (s.setCell _ _).objs.length = _; rw [len_set]; exact D.len, by show (s.setCell _ _).ub = none; rw [ub_set]; exact D.ub⟩, ?_⟩
        · cases l with
          | var i =>
            show i < (s.setCell _ _).vars.length
            rw [vars_set]; exact D.anchor
          | fld bo j =>
            obtain ⟨⟨z, hz, z1, z2⟩, z3⟩ := D.anchor
            have hb : bo ≠ o := fun e => hl_o j (by rw [e])
            refine ⟨⟨z, ?_, z1, z2⟩, ?_⟩
            · show (s.setCell _ _).objs[bo]? = _
              simp only [St.setCell]
              split
              · simp [List.getElem?_set, Ne.symm hb, hz]
              · exact hz
            · show _ ∈ (s.setCell _ _).vars ∨ _
              rw [vars_set]; exact z3
        · have hm' : ((s.setCell (.fld o k) (Cell.make none)).cell m).ptr = some a := hm
          rw [hcell] at hm'
          by_cases e : m = .fld o k
          · rw [if_pos e] at hm'; cases hm'
          · rw [if_neg e] at hm'; exact D.ptr m a hm'
        · refine D.tasks d ?_
          rw [h]
          rcases hd with hd | hd
          · exact .inl (List.mem_cons_of_mem _ hd)
          · exact .inr (List.mem_cons_of_mem _ hd)
        · show (s.setCell _ _).is f a = _; rw [life_set]; exact D.life a f hn
        · show (s.setCell _ _).cell m = _
          rw [hcell]
          by_cases e : m = .fld o k
          · exact absurd hu (hn o k e)
          · rw [if_neg e]; exact D.cell m hm hn
        · have := todo_set (s := s) (.fld o k) (Cell.make none)
          simp only [St.todo, sumBy_cons, Task.todo, h]; omega

theorem run_add (C : Nat → Cls) (a b : Nat) (s : St) : run C (a + b) s = run C b (run C a s) := by
  induction a generalizing s with
  | zero => simp [run]
  | succ a ih => rw [Nat.succ_add]; exact ih (s.step C)

theorem deleting_end {C : Nat → Cls} (hC : ∀ c, (C c).dtor = []) {s1 s : St} {l : Loc} {p : Option Nat} {ops : List Op} (S : Start s1 l p ops) (D : Deleting s1 l p ops s) :
    ∃ n, Deleted s1 l p ops (run C n s) := by
  generalize hn : s.todo = n
  induction n using Nat.strongRecOn generalizing s with
  | ind n ih =>
    rcases deleting_step hC S D with ⟨D', hlt⟩ | h
    · obtain ⟨k, hk⟩ := ih (s.step C).todo (by omega) D' rfl
      exact ⟨k + 1, hk⟩
    · exact ⟨1, h⟩

/-- `Reset` from beginning to end -/
theorem reset_end {C : Nat → Cls} (hC : ∀ c, (C c).dtor = []) {s1 : St} {l : Loc} {p : Option Nat} {ops : List Op} (S : Start s1 l p ops) :
    ∃ n, Deleted s1 l p ops (run C n (s1.reset l p)) := by
  apply deleting_end hC S
  have I := S.inv
  have v := S.anchor.valid
  unfold St.reset at I ⊢
  rcases ptr_cases (s1.cell l) with ⟨hc, hp⟩ | ⟨o, hc, hp⟩ | ⟨o, hc, hp⟩
  · rw [hp] at I ⊢
    refine ⟨I, ?_, ?_, S.anchor, fun m o h => h, fun c hc => ?_, fun o f _ => rfl, fun m _ _ => rfl, rfl, S.ub⟩
    · show Busy l p (_ :: s1.stack); rw [S.stack]; exact .base ops
    · show _ <:+ (_ :: s1.stack); rw [S.stack]; exact List.suffix_rfl
    · exfalso
      rw [S.stack] at hc
      simp [List.mem_map] at hc
  · rw [hp] at I ⊢
    have hst : (.del o :: .store l p :: s1.stack) = (.del o :: .store l p :: ops.map Task.op) := by rw [S.stack]
    have an : Anchor { s1.setCell l (.stale o) with stack := .del o :: .store l p :: s1.stack } l p := by
      rcases I.shape with ⟨ops', ho⟩ | ⟨l', p', b, a⟩
      · cases ops' <;> simp at ho
      · have b' : Busy l' p' (.del o :: .store l p :: s1.stack) := b
        rw [hst] at b'
        rcases busy_store b' (m := l) (q := p) (by simp) with ⟨e1, e2⟩ | ⟨o', k', _, hf⟩
        · subst e1 e2; exact a
        · simp [List.mem_map] at hf
    refine ⟨I, ?_, ?_, an, fun m a h => ?_, fun c hc => ?_, fun a f _ => ?_, fun m hm hn => ?_, len_set s1 l _, ?_⟩
    · show Busy l p (_ :: _ :: s1.stack); rw [S.stack]; exact .del o (.base ops)
    · show _ <:+ (_ :: _ :: s1.stack); rw [S.stack]
      exact List.suffix_cons_iff.2 (.inr List.suffix_rfl)
    · have h' : ((s1.setCell l (.stale o)).cell m).ptr = some a := h
      rw [cell_set v] at h'
      by_cases e : m = l
      · rw [if_pos e] at h'; rw [e, hp]; exact h'
      · rw [if_neg e] at h'; exact h'
    · have hc' : .del c ∈ (.del o :: .store l p :: s1.stack) ∨ .fields c ∈ (.del o :: .store l p :: s1.stack) := hc
      rw [S.stack] at hc'
      simp [List.mem_map] at hc'
      subst hc'
      exact .root hp
    · exact life_set s1 l _ f a
    · show (s1.setCell _ _).cell m = _
      rw [cell_set v, if_neg hm]
    · show (s1.setCell _ _).ub = none; rw [ub_set]; exact S.ub
  · exact absurd hc (S.stale l o)

end Verif.UniqueGraph
