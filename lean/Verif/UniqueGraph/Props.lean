import Verif.UniqueGraph.Spec
/-!
# C111 – trees of objects owned through `UniquePtr`

`hC` says that the destructors have no code that uses `UniquePtr` variables (they only destroy their members).
-/
namespace Verif.UniqueGraph
open Verif.Common

/-- No program that only creates, moves and clears handles deletes an object twice or touches freed memory, in whatever intermediate state: the only undefined behaviour left is its own use of
a null pointer. -/
theorem C111_safe_partial {C : Nat → Cls} (hC : ∀ c, (C c).dtor = []) {s : St} (h : Reach C s) : s.ub = none ∨ s.ub = some .null := by
  have := (inv_reach hC h).ub
  cases hu : s.ub with
  | none => exact .inl rfl
  | some u => cases u <;> simp_all

/-- Between two operations every live object is in exactly one handle, and every handle that is not null holds a live object. -/
theorem C111_unique_partial {C : Nat → Cls} (hC : ∀ c, (C c).dtor = []) {s : St} (h : Reach C s) {ops : List Op} (hs : s.stack = ops.map .op) :
    (∀ (o : Nat) (x : Obj), s.objs[o]? = some x → x.life = .alive → ∃ l, (s.cell l).ptr = some o ∧ ∀ m, (s.cell m).ptr = some o → m = l)
    ∧ ∀ l o, (s.cell l).ptr = some o → ∃ x, s.objs[o]? = some x ∧ x.life = .alive := by
  have R := (inv_reach hC h).rest hs
  have key : ∀ m o, (s.cell m).ptr = some o → s.cell m = .own o := by
    intro m o hm
    rcases ptr_cases (s.cell m) with ⟨hc, hp⟩ | ⟨c, hc, hp⟩ | ⟨c, hc, hp⟩
    · rw [hp] at hm; cases hm
    · rw [hp] at hm; cases hm; exact hc
    · exact absurd hc (R.stale m c)
  refine ⟨fun o x hx ha => ?_, fun l o hl => ?_⟩
  · have e := R.eq o
    rw [is_some hx, ha, if_pos rfl] at e
    obtain ⟨l, hl⟩ := owner_of (s := s) (o := o) (by omega)
    refine ⟨l, by rw [hl]; rfl, fun m hm => ?_⟩
    apply Classical.byContradiction
    intro hne
    have := own_two (key m o hm) hl hne
    omega
  · have := own_pos (key l o hl)
    have e := R.eq o
    exact is_of (by omega)

/-- Nothing leaks unless objects own each other in a circle: when no variable holds anything and the members can be ranked, no object is alive. -/
theorem C111_leak_partial {C : Nat → Cls} (hC : ∀ c, (C c).dtor = []) {s : St} (h : Reach C s) (hs : s.stack = []) (hv : ∀ i, (s.cell (.var i)).ptr = none)
    (rank : Nat → Nat) (hr : ∀ a k o, (s.cell (.fld a k)).ptr = some o → rank a < rank o) {o : Nat} {x : Obj} (hx : s.objs[o]? = some x) : x.life = .freed := by
  have R := (inv_reach hC h).rest (ops := []) hs
  have na : ∀ n o x, rank o = n → s.objs[o]? = some x → x.life ≠ .alive := by
    intro n
    induction n using Nat.strongRecOn with
    | ind n ih =>
      intro o x hn hx ha
      obtain ⟨l, hl, _⟩ := (C111_unique_partial hC h (ops := []) hs).1 o x hx ha
      cases l with
      | var i => rw [hv i] at hl; cases hl
      | fld a k =>
        have hlt := hr a k o hl
        simp only [St.cell] at hl
        cases hy : s.objs[a]? with
        | none => rw [hy] at hl; cases hl
        | some y =>
          have hya : y.life ≠ .alive := ih (rank a) (by omega) a y rfl hy
          have hyd := R.fl a
          rw [is_some hy] at hyd
          have hyf : y.life = .freed := by
            cases hyl : y.life <;> simp [hyl] at hya hyd ⊢
          have l4 := R.left a y hy
          have h0 := l4.2.2.1 hyf
          rw [hy] at hl
          have hl' : (y.fields.getD k .null).ptr = some o := hl
          rcases ptr_cases (y.fields.getD k .null) with ⟨hc, hp⟩ | ⟨c, hc, hp⟩ | ⟨c, hc, hp⟩
          · rw [hp] at hl'; cases hl'
          · rw [List.getD_eq_getElem?_getD] at hc
            cases hi : y.fields[k]? with
            | none => rw [hi] at hc; cases hc
            | some d => rw [hi] at hc; cases hc; exact l4.2.2.2 k c (by omega) hi
          · apply R.stale (.fld a k) c
            simp only [St.cell, hy]; exact hc
  have h1 := na (rank o) o x rfl hx
  have h2 := R.fl o
  rw [is_some hx] at h2
  cases hxl : x.life <;> simp [hxl] at h1 h2 ⊢

theorem under_congr {s s' : St} (h : ∀ m, s.cell m = s'.cell m) {l : Loc} {o : Nat} (hu : Under s l o) : Under s' l o := by
  induction hu with
  | root hr => exact .root (by rw [← h]; exact hr)
  | child _ ho ih =>
    obtain ⟨k, hk⟩ := ho
    exact .child ih ⟨k, by rw [← h]; exact hk⟩

theorem start_clear {s : St} {d : Slot} {l : Loc} {ops : List Op} (R : Rest s (.clear d :: ops)) (hu : s.ub = none) (hd : s.resolve d = .ok l) :
    Start { s with stack := ops.map .op } l none ops :=
  ⟨rfl, fun o => R.eq o, R.fl, R.stale, resolve_ok R.le R.stale hd, R.left, hu⟩

theorem start_create {C : Nat → Cls} {s : St} {d : Slot} {c : Nat} {l : Loc} {ops : List Op} (R : Rest s (.create d c :: ops)) (hu : s.ub = none) (hd : s.resolve d = .ok l) :
    Start { s with objs := s.objs ++ [{ cls := c, fields := List.replicate (C c).nfields .null, left := (C c).nfields }], stack := ops.map .op } l (some s.objs.length) ops
    ∧ ∀ m, s.cell m = St.cell { s with objs := s.objs ++ [{ cls := c, fields := List.replicate (C c).nfields .null, left := (C c).nfields }], stack := ops.map .op } m := by
  have al := resolve_ok R.le R.stale hd
  generalize hx0 : ({ cls := c, fields := List.replicate (C c).nfields .null, left := (C c).nfields } : Obj) = x0
  have hobj : ∀ (o : Nat) (x : Obj), (s.objs ++ [x0])[o]? = some x → s.objs[o]? = some x ∨ (o = s.objs.length ∧ x = x0) := by
    intro o x hx
    rw [List.getElem?_append] at hx
    split at hx
    · exact .inl hx
    · rw [List.getElem?_singleton] at hx
      split at hx
      · cases hx; exact .inr ⟨by omega, rfl⟩
      · cases hx
  have hlife : ∀ f o, St.is { s with objs := s.objs ++ [x0], stack := ops.map .op } f o = s.is f o + if o = s.objs.length ∧ f = .alive then 1 else 0 := by
    intro f o
    simp only [St.is]
    rw [List.getElem?_append]
    by_cases e : o < s.objs.length
    · rw [if_pos e]
      have : ¬ (o = s.objs.length ∧ f = .alive) := fun h => by omega
      rw [if_neg this]; simp
    · rw [if_neg e, List.getElem?_eq_none (by omega : s.objs.length ≤ o)]
      by_cases e2 : o = s.objs.length
      · subst e2; subst hx0
        cases f <;> simp
      · have : ¬ (o = s.objs.length ∧ f = .alive) := fun h => e2 h.1
        rw [if_neg this, List.getElem?_singleton, if_neg (by omega)]
  have hcell : ∀ m, s.cell m = St.cell { s with objs := s.objs ++ [x0], stack := ops.map .op } m := by
    intro m
    cases m with
    | var i => rfl
    | fld b k =>
      simp only [St.cell]
      rcases Nat.lt_or_ge b s.objs.length with hb | hb
      · rw [List.getElem?_append_left hb]
      · rw [List.getElem?_eq_none hb]
        cases hb2 : (s.objs ++ [x0])[b]? with
        | none => rfl
        | some x =>
          rcases hobj b x hb2 with h | ⟨_, h⟩
          · rw [List.getElem?_eq_none hb] at h; cases h
          · subst h; subst hx0
            simp only [List.getD_eq_getElem?_getD, List.getElem?_replicate]
            split <;> rfl
  refine ⟨⟨rfl, fun o => ?_, fun o => ?_, fun m o hc => R.stale m o (by rw [hcell]; exact hc), ?_, fun o x hx => ?_, hu⟩, hcell⟩
  · rw [hlife, ← R.eq]
    simp only [St.own]
    rw [sumBy_append]
    have : sumBy (Obj.has o) [x0] = 0 := by subst hx0; simp [Obj.has, has_null]
    rw [this]
    simp only [optHas, and_true]
    by_cases e : s.objs.length = o
    · rw [if_pos e, if_pos e.symm]; omega
    · rw [if_neg e, if_neg (fun h => e h.symm)]; omega
  · rw [hlife, R.fl]; simp
  · cases l with
    | var i => exact al
    | fld o k =>
      obtain ⟨⟨x, hx, hx2, hk⟩, hv⟩ := al
      refine ⟨⟨x, ?_, hx2, hk⟩, .inl ?_⟩
      · show (s.objs ++ [x0])[o]? = _
        rw [List.getElem?_append_left (lt_of hx)]; exact hx
      · rcases hv with h | h
        · exact h
        · cases h
  · rcases hobj o x hx with h | ⟨_, h⟩
    · exact R.left o x h
    · subst h; subst hx0
      refine ⟨by simp, fun _ => by simp, (by intro h; cases h), fun k c hk hc => ?_⟩
      simp only [List.getElem?_replicate] at hc
      split at hc <;> cases hc

theorem start_move {s : St} {d q : Slot} {l m : Loc} {ops : List Op} (R : Rest s (.move d q :: ops)) (hu : s.ub = none) (hd : s.resolve d = .ok l) (hq : s.resolve q = .ok m)
    (hne : (s.cell l).ptr ≠ (s.cell m).ptr) :
    Start (St.setCell { s with stack := ops.map .op } m .null) l (s.cell m).ptr ops := by
  have hV := resolve_ok R.le R.stale hq
  have I := inv_exec (C := fun _ => ⟨0, []⟩) (s := { s with stack := ops.map .op }) (ops := ops) ⟨rfl, R.eq, R.fl, R.stale, R.left, R.ub⟩ (.move d q)
  have al := resolve_ok R.le R.stale hd
  have vm : Valid { s with stack := ops.map .op } m := hV.valid
  have hcell : ∀ o, optHas o (s.cell m).ptr = (s.cell m).has o := by
    intro o
    rcases ptr_cases (s.cell m) with ⟨hc, hp⟩ | ⟨a, hc, hp⟩ | ⟨a, hc, hp⟩
    · rw [hc]; rfl
    · rw [hc]; rfl
    · exact absurd hc (R.stale m a)
  refine ⟨by rw [stack_set], fun o => ?_, fun o => by rw [life_set]; exact R.fl o, fun a o hc => ?_, ?_, ?_, by rw [ub_set]; exact hu⟩
  · have e := own_set vm .null o
    rw [life_set]
    have e1 : St.is { s with stack := ops.map .op } .alive o = s.own o := (R.eq o).symm
    have e2 : St.own { s with stack := ops.map .op } o = s.own o := rfl
    have e3 : St.cell { s with stack := ops.map .op } m = s.cell m := rfl
    rw [e1, hcell]
    rw [e2, e3] at e
    simp only [Cell.has] at e ⊢
    omega
  · rw [cell_set vm] at hc
    by_cases e : a = m
    · rw [if_pos e] at hc; cases hc
    · rw [if_neg e] at hc; exact R.stale a o hc
  · cases l with
    | var i =>
      show i < (St.setCell _ m .null).vars.length
      cases m with
      | var j => simp [St.setCell]; exact al
      | fld a k => rw [vars_set]; exact al
    | fld o k =>
      obtain ⟨⟨x, hx, hx2, hk⟩, hv⟩ := al
      have hv : .own o ∈ s.vars := by
        rcases hv with h | h
        · exact h
        · cases h
      refine ⟨?_, ?_⟩
      · cases m with
        | var j => exact ⟨x, hx, hx2, hk⟩
        | fld a j =>
          by_cases ea : a = o
          · subst ea
            exact ⟨_, obj_self (s := { s with stack := ops.map .op }) hx j .null, hx2, by simp; exact hk⟩
          · refine ⟨x, ?_, hx2, hk⟩
            simp only [St.setCell]
            split
            · simp [List.getElem?_set, ea, hx]
            · exact hx
      · cases m with
        | fld a j => left; rw [vars_set]; exact hv
        | var j =>
          obtain ⟨i, hi⟩ := List.getElem?_of_mem hv
          by_cases ej : j = i
          · subst ej
            right
            simp only [St.cell]
            rw [getD_of hi]; rfl
          · left
            show _ ∈ s.vars.set j .null
            apply List.mem_of_getElem? (i := i)
            simp [List.getElem?_set, ej, hi]
  · intro o y hy
    obtain ⟨x, hx, e1, e2, _, e3, e4, e5⟩ := obj_set hy
    obtain ⟨l1, l2, l3, l4⟩ := R.left o x hx
    refine ⟨by omega, fun h => by rw [e2, e3]; exact l2 (e1 ▸ h), fun h => by rw [e2]; exact l3 (e1 ▸ h), fun k c hk hc => ?_⟩
    by_cases e : .fld o k = m
    · have := e5 k e _ hc; cases this
    · rw [e4 k e] at hc; exact l4 k c (by omega) hc

/-- the outcome of an operation: `before` is the state when the old object is deleted -/
structure Outcome (before after : St) (l : Loc) (p : Option Nat) (ops : List Op) : Prop where
  /-- the operation is over -/
  stack : after.stack = ops.map .op
  ub : after.ub = none
  /-- the handle holds the new pointer -/
  handle : (after.cell l).ptr = p
  /-- everything the handle owned, directly or through members, has been destroyed and freed -/
  freed : ∀ o, Under before l o → ∃ x, after.objs[o]? = some x ∧ x.life = .freed
  /-- nothing else has been destroyed -/
  kept : ∀ (o : Nat) (x : Obj), before.objs[o]? = some x → ¬ Under before l o → ∃ y, after.objs[o]? = some y ∧ y.life = x.life
  /-- no other handle has changed -/
  others : ∀ m, m ≠ l → (∀ o k, m = .fld o k → ¬ Under before l o) → after.cell m = before.cell m

theorem outcome_of {s1 s : St} {l : Loc} {p : Option Nat} {ops : List Op} (D : Deleted s1 l p ops s) : Outcome s1 s l p ops := by
  refine ⟨D.rest.stack, D.ub, ?_, D.freed, fun o x hx hn => ?_, D.cell⟩
  · rw [D.handle]; cases p <;> rfl
  · have hl := D.life o x.life hn
    rw [is_some hx, if_pos rfl] at hl
    obtain ⟨y, hy, e⟩ := is_of (s := s) (f := x.life) (o := o) (by omega)
    exact ⟨y, hy, e⟩

theorem step_exec {C : Nat → Cls} {s : St} {q : Op} {ops : List Op} (hu : s.ub = none) (hs : s.stack = .op q :: ops.map .op) :
    s.step C = St.exec C { s with stack := ops.map .op } q := by
  unfold St.step
  rw [if_neg (fun h => h hu), hs]

/-- `d = nullptr` (116-120) destroys exactly what the handle owned, directly or through members. -/
theorem C111_clear_partial {C : Nat → Cls} (hC : ∀ c, (C c).dtor = []) {s : St} (h : Reach C s) (hu : s.ub = none) {d : Slot} {ops : List Op}
    (hs : s.stack = (Op.clear d :: ops).map .op) {l : Loc} (hd : s.resolve d = .ok l) : ∃ n, Outcome { s with stack := ops.map .op } (run C n s) l none ops := by
  have R := (inv_reach hC h).rest hs
  obtain ⟨n, hn⟩ := reset_end hC (start_clear R hu hd)
  refine ⟨n + 1, outcome_of ?_⟩
  have e : s.step C = St.reset { s with stack := ops.map .op } l none := by
    rw [step_exec hu (by rw [hs]; rfl)]
    have : St.resolve { s with stack := ops.map .op } d = .ok l := hd
    simp only [St.exec, this]
  show Deleted _ l none ops (run C n (s.step C))
  rw [e]; exact hn

/-- `d = UniquePtr<C>::Create()` (55-59, 122-130): the new object replaces what the handle owned. -/
theorem C111_create_partial {C : Nat → Cls} (hC : ∀ c, (C c).dtor = []) {s : St} (h : Reach C s) (hu : s.ub = none) {d : Slot} {c : Nat} {ops : List Op}
    (hs : s.stack = (Op.create d c :: ops).map .op) {l : Loc} (hd : s.resolve d = .ok l) :
    ∃ n, (∃ x, (run C n s).objs[s.objs.length]? = some x ∧ x.life = .alive)
      ∧ Outcome { s with objs := s.objs ++ [{ cls := c, fields := List.replicate (C c).nfields .null, left := (C c).nfields }], stack := ops.map .op } (run C n s) l (some s.objs.length) ops := by
  have R := (inv_reach hC h).rest hs
  obtain ⟨S, hcell⟩ := start_create (C := C) R hu hd
  obtain ⟨n, hn⟩ := reset_end hC S
  have e : s.step C = St.reset { s with objs := s.objs ++ [{ cls := c, fields := List.replicate (C c).nfields .null, left := (C c).nfields }], stack := ops.map .op } l (some s.objs.length) := by
    rw [step_exec hu (by rw [hs]; rfl)]
    have : St.resolve { s with stack := ops.map .op } d = .ok l := hd
    simp only [St.exec, this]
  have hn' := hn
  rw [← e] at hn'
  change Deleted _ l (some s.objs.length) ops (run C (n + 1) s) at hn'
  refine ⟨n + 1, ?_, outcome_of hn'⟩
  have O := outcome_of hn'
  obtain ⟨y, hy, hl⟩ := O.kept s.objs.length { cls := c, fields := List.replicate (C c).nfields .null, left := (C c).nfields } (by simp)
    (fun hun => (under_one S hun).1 rfl)
  exact ⟨y, hy, hl⟩

/-- `d = std::move(q)` (122-130): `q` is empty when the old object is deleted, so what moves is kept even if `q` was a member of an object that is destroyed now; only what `d` owned without it is destroyed. Nothing
happens if both handles hold the same pointer. -/
theorem C111_move_partial {C : Nat → Cls} (hC : ∀ c, (C c).dtor = []) {s : St} (h : Reach C s) (hu : s.ub = none) {d q : Slot} {ops : List Op}
    (hs : s.stack = (Op.move d q :: ops).map .op) {l m : Loc} (hd : s.resolve d = .ok l) (hq : s.resolve q = .ok m) :
    ((s.cell l).ptr = (s.cell m).ptr → s.step C = { s with stack := ops.map .op })
    ∧ ((s.cell l).ptr ≠ (s.cell m).ptr → ∃ n, Outcome (St.setCell { s with stack := ops.map .op } m .null) (run C n s) l (s.cell m).ptr ops
      ∧ ∀ o, (s.cell m).ptr = some o → ∃ x, (run C n s).objs[o]? = some x ∧ x.life = .alive) := by
  have R := (inv_reach hC h).rest hs
  have r1 : St.resolve { s with stack := ops.map .op } d = .ok l := hd
  have r2 : St.resolve { s with stack := ops.map .op } q = .ok m := hq
  have c1 : ∀ a, St.cell { s with stack := ops.map .op } a = s.cell a := fun _ => rfl
  refine ⟨fun he => ?_, fun hne => ?_⟩
  · rw [step_exec hu (by rw [hs]; rfl)]
    simp only [St.exec, r1, r2, c1]
    rw [if_neg (fun h => h he)]
  · have S := start_move R hu hd hq hne
    obtain ⟨n, hn⟩ := reset_end hC S
    have e : s.step C = (St.setCell { s with stack := ops.map .op } m .null).reset l (s.cell m).ptr := by
      rw [step_exec hu (by rw [hs]; rfl)]
      simp only [St.exec, r1, r2, c1]
      rw [if_pos hne]
    have hn' := hn
    rw [← e] at hn'
    change Deleted _ l (s.cell m).ptr ops (run C (n + 1) s) at hn'
    refine ⟨n + 1, outcome_of hn', fun o ho => ?_⟩
    have hal := S.eq o
    rw [ho] at hal
    simp only [optHas, if_true] at hal
    obtain ⟨x, hx, hxa⟩ := is_of (s := St.setCell { s with stack := ops.map .op } m .null) (f := .alive) (o := o) (by omega)
    obtain ⟨y, hy, hl⟩ := (outcome_of hn').kept o x hx (fun hun => (under_one S hun).1 ho)
    exact ⟨y, hy, by rw [hl, hxa]⟩

/-- The usual way to take the first node off a list, `head = std::move(head->next)`, is safe: the first node is freed, its successor lives on in `head`. -/
theorem C111_pop_front_partial {C : Nat → Cls} (hC : ∀ c, (C c).dtor = []) {s : St} (h : Reach C s) (hu : s.ub = none) {i k : Nat} {ops : List Op}
    (hs : s.stack = (Op.move (.var i) (.field i k) :: ops).map .op) {o c : Nat} {x : Obj} (hv : (s.cell (.var i)).ptr = some o) (hx : s.objs[o]? = some x) (hk : k < x.fields.length)
    (hn : (s.cell (.fld o k)).ptr = some c) :
    ∃ n, (run C n s).ub = none ∧ (run C n s).stack = ops.map .op ∧ ((run C n s).cell (.var i)).ptr = some c
      ∧ (∃ y, (run C n s).objs[o]? = some y ∧ y.life = .freed) ∧ ∃ y, (run C n s).objs[c]? = some y ∧ y.life = .alive := by
  have U := C111_unique_partial hC h hs
  obtain ⟨x', hx', ha⟩ := U.2 _ _ hv
  rw [hx] at hx'; cases hx'
  have hvi : i < s.vars.length := by
    have := valid_of_ptr hv; exact this
  have rd : s.resolve (.var i) = .ok (.var i) := by simp [St.resolve, hvi]
  have rq : s.resolve (.field i k) = .ok (.fld o k) := by
    have : (s.vars.getD i .null).ptr = some o := hv
    simp only [St.resolve, this, hx, ha, if_true, hk]
  have hne : c ≠ o := by
    intro e
    subst e
    obtain ⟨l, hl, hun⟩ := U.1 c x hx ha
    have h1 := hun _ hv
    have h2 := hun _ hn
    rw [← h1] at h2; cases h2
  obtain ⟨n, O, hc⟩ := (C111_move_partial hC h hu hs rd rq).2 (by rw [hv, hn]; intro e; exact hne (by cases e; rfl))
  refine ⟨n, O.ub, O.stack, by rw [O.handle, hn], O.freed o (.root ?_), hc c hn⟩
  have vm : Valid { s with stack := ops.map .op } (.fld o k) := valid_of_ptr (s := s) hn
  rw [cell_set vm]
  rw [if_neg (by simp)]; exact hv

/-- Every program comes to its end (or to its own null pointer): the nested destructors always finish. -/
theorem C111_ends_partial {C : Nat → Cls} (hC : ∀ c, (C c).dtor = []) (n : Nat) (prog : List Op) :
    ∃ k, (run C k { vars := List.replicate n .null, stack := prog.map .op }).ub = some .null
      ∨ ((run C k { vars := List.replicate n .null, stack := prog.map .op }).ub = none ∧ (run C k { vars := List.replicate n .null, stack := prog.map .op }).stack = []) := by
  have key : ∀ (ops : List Op) (s : St), Rest s ops → s.ub = none → ∃ k, (run C k s).ub = some .null ∨ ((run C k s).ub = none ∧ (run C k s).stack = []) := by
    intro ops
    induction ops with
    | nil => intro s R hu; exact ⟨0, .inr ⟨hu, R.stack⟩⟩
    | cons q ops ih =>
      intro s R hu
      have he : s.step C = St.exec C { s with stack := ops.map .op } q := step_exec hu R.stack
      have err : ∀ d u, s.resolve d = .error u → s.step C = { s with stack := ops.map .op, ub := some u } → ∃ k, (run C k s).ub = some .null ∨ ((run C k s).ub = none ∧ (run C k s).stack = []) := by
        intro d u hd hst
        have := resolve_err R.le R.stale hd
        subst this
        refine ⟨1, .inl ?_⟩
        show (s.step C).ub = _
        rw [hst]
      have go : ∀ s1 l p, Start s1 l p ops → s.step C = s1.reset l p → ∃ k, (run C k s).ub = some .null ∨ ((run C k s).ub = none ∧ (run C k s).stack = []) := by
        intro s1 l p S hst
        obtain ⟨a, D⟩ := reset_end hC S
        obtain ⟨b, hb⟩ := ih _ D.rest D.ub
        refine ⟨a + b + 1, ?_⟩
        have : run C (a + b + 1) s = run C b (run C a (s1.reset l p)) := by
          rw [← hst, ← run_add]; rfl
        rw [this]; exact hb
      cases q with
      | clear d =>
        cases hd : s.resolve d with
        | error u =>
          apply err d u hd
          have hd' : St.resolve { s with stack := ops.map .op } d = .error u := hd
          rw [he]; simp only [St.exec, hd']
        | ok l =>
          apply go _ _ _ (start_clear R hu hd)
          have hd' : St.resolve { s with stack := ops.map .op } d = .ok l := hd
          rw [he]; simp only [St.exec, hd']
      | create d c =>
        cases hd : s.resolve d with
        | error u =>
          apply err d u hd
          have hd' : St.resolve { s with stack := ops.map .op } d = .error u := hd
          rw [he]; simp only [St.exec, hd']
        | ok l =>
          apply go _ _ _ (start_create (C := C) R hu hd).1
          have hd' : St.resolve { s with stack := ops.map .op } d = .ok l := hd
          rw [he]; simp only [St.exec, hd']
      | move d m =>
        cases hd : s.resolve d with
        | error u =>
          apply err d u hd
          have hd' : St.resolve { s with stack := ops.map .op } d = .error u := hd
          rw [he]; simp only [St.exec, hd']
        | ok l =>
          have hd' : St.resolve { s with stack := ops.map .op } d = .ok l := hd
          cases hm : s.resolve m with
          | error u =>
            apply err m u hm
            have hm' : St.resolve { s with stack := ops.map .op } m = .error u := hm
            rw [he]; simp only [St.exec, hd', hm']
          | ok m' =>
            have hm' : St.resolve { s with stack := ops.map .op } m = .ok m' := hm
            have c1 : ∀ a, St.cell { s with stack := ops.map .op } a = s.cell a := fun _ => rfl
            by_cases hne : (s.cell l).ptr ≠ (s.cell m').ptr
            · apply go _ _ _ (start_move R hu hd hm hne)
              rw [he]; simp only [St.exec, hd', hm', c1]
              rw [if_pos hne]
            · have hst : s.step C = { s with stack := ops.map .op } := by
                rw [he]; simp only [St.exec, hd', hm', c1]
                rw [if_neg hne]
              obtain ⟨b, hb⟩ := ih { s with stack := ops.map .op } ⟨rfl, R.eq, R.fl, R.stale, R.left, R.ub⟩ hu
              refine ⟨b + 1, ?_⟩
              have : run C (b + 1) s = run C b { s with stack := ops.map .op } := by rw [← hst]; rfl
              rw [this]; exact hb
  exact key prog _ ((inv_reach hC (.init n prog)).rest rfl) rfl

/-- A destructor that clears the handle which owns the object (as destructors of objects in global handles do) deletes the object a second time, in every state: `Reset` calls `delete` before it
overwrites `p` (68-71), so the handle still holds the pointer. -/
theorem C111_reenter_fails (C : Nat → Cls) (s : St) (hu : s.ub = none) {i o : Nat} {x : Obj} {r : List Task} {rest : List Op}
    (hs : s.stack = .op (.clear (.var i)) :: r) (hi : s.vars[i]? = some (.own o)) (hx : s.objs[o]? = some x) (ha : x.life = .alive)
    (hd : (C x.cls).dtor = .clear (.var i) :: rest) : (run C 4 s).ub = some .twice := by
  have hlen : i < s.vars.length := by
    rcases Nat.lt_or_ge i s.vars.length with h | h
    · exact h
    · rw [List.getElem?_eq_none h] at hi; cases hi
  have hol := lt_of hx
  have e1 : s.step C = { s with vars := s.vars.set i (.stale o), stack := .del o :: .store (.var i) none :: r } := by
    unfold St.step
    rw [if_neg (fun h => h hu), hs]
    have hr : St.resolve { s with stack := r } (.var i) = .ok (.var i) := by simp [St.resolve, hlen]
    have hp : (St.cell { s with stack := r } (.var i)).ptr = some o := by
      simp only [St.cell]; rw [getD_of hi]; rfl
    simp only [St.exec, hr, St.reset, hp]
    rfl
  generalize hs1 : ({ s with vars := s.vars.set i (.stale o), stack := .del o :: .store (.var i) none :: r } : St) = s1 at e1
  have e2 : s1.step C = { s1 with objs := s1.objs.set o { x with life := .dying }, stack := .op (.clear (.var i)) :: rest.map .op ++ .fields o :: .store (.var i) none :: r } := by
    unfold St.step
    rw [← hs1]
    simp only [hu, ne_eq, not_true, if_false, hx, ha, if_true, hd, List.map_cons]
  generalize hs2 : ({ s1 with objs := s1.objs.set o { x with life := .dying }, stack := .op (.clear (.var i)) :: rest.map .op ++ .fields o :: .store (.var i) none :: r } : St) = s2 at e2
  have hu2 : s2.ub = none := by rw [← hs2, ← hs1]; exact hu
  have hv2 : s2.vars[i]? = some (.stale o) := by rw [← hs2, ← hs1]; simp [hlen]
  have ho2 : s2.objs[o]? = some { x with life := .dying } := by rw [← hs2, ← hs1]; simp [hol]
  have hl2 : i < s2.vars.length := by rw [← hs2, ← hs1]; simpa using hlen
  have hst2 : s2.stack = .op (.clear (.var i)) :: (rest.map .op ++ .fields o :: .store (.var i) none :: r) := by rw [← hs2]; rfl
  generalize (rest.map Task.op ++ Task.fields o :: Task.store (.var i) none :: r) = t at hst2
  have e3 : s2.step C = { s2 with vars := s2.vars.set i (.stale o), stack := .del o :: .store (.var i) none :: t } := by
    unfold St.step
    rw [if_neg (fun h => h hu2), hst2]
    have hr : St.resolve { s2 with stack := t } (.var i) = .ok (.var i) := by simp [St.resolve, hl2]
    have hp : (St.cell { s2 with stack := t } (.var i)).ptr = some o := by
      simp only [St.cell]; rw [getD_of hv2]; rfl
    simp only [St.exec, hr, St.reset, hp]
    rfl
  show ((((s.step C).step C).step C).step C).ub = _
  rw [e1, e2, e3]
  unfold St.step
  simp only [hu2, ne_eq, not_true, if_false, ho2, reduceCtorEq]

/-! ### concrete cases -/

/-- nodes with one member -/
def node : Nat → Cls := fun _ => { nfields := 1 }

/-- a list of three nodes built from the end, its first node taken off, then the rest dropped -/
def demo : List Op := [.create (.var 0) 0, .create (.var 1) 0, .move (.field 1 0) (.var 0), .create (.var 0) 0, .move (.field 0 0) (.var 1), .move (.var 0) (.field 0 0), .clear (.var 0)]

def demoAt (n : Nat) : St := run node n { vars := [.null, .null], stack := demo.map .op }

example : (demoAt 10).stack = [.op (.move (.var 0) (.field 0 0)), .op (.clear (.var 0))] ∧ ((demoAt 10).cell (.var 0)).ptr = some 2 ∧ ((demoAt 10).cell (.fld 2 0)).ptr = some 1
    ∧ ((demoAt 10).cell (.fld 1 0)).ptr = some 0 ∧ (demoAt 10).objs.map Obj.life = [.alive, .alive, .alive] := by decide

example : (demoAt 30).stack = [] ∧ (demoAt 30).ub = none ∧ (demoAt 30).objs.map Obj.life = [.freed, .freed, .freed] := by decide

/-- An object that is moved into its own member is never freed (`a->next = std::move(a)`): the ranking in `C111_leak_partial` cannot be left out. -/
theorem C111_leak_fails : ∃ s, Reach node s ∧ s.stack = [] ∧ s.ub = none ∧ (∀ i, (s.cell (.var i)).ptr = none) ∧ ∃ (o : Nat) (x : Obj), s.objs[o]? = some x ∧ x.life = .alive := by
  have hr : ∀ n s, Reach node s → Reach node (run node n s) := by
    intro n
    induction n with
    | zero => intro s h; exact h
    | succ n ih => intro s h; exact ih _ (.step h)
  refine ⟨_, hr 4 _ (.init 1 [.create (.var 0) 0, .move (.field 0 0) (.var 0)]), by decide, by decide, fun i => ?_, 0, { cls := 0, fields := [.own 0], left := 1 }, by decide, by decide⟩
  cases i with
  | zero => decide
  | succ i => rfl

/-- the object of a global handle whose destructor clears that handle -/
example : (run (fun _ => { nfields := 0, dtor := [.clear (.var 0)] }) 10 { vars := [.null], stack := [.op (.create (.var 0) 0), .op (.clear (.var 0))] }).ub = some .twice := by decide

end Verif.UniqueGraph
