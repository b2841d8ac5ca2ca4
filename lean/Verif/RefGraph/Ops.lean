import Verif.RefGraph.Lemmas
/-! The invariant, continued: the store and the operations. -/
namespace Verif.RefGraph
open Verif.Common

theorem shape_store {s : St} {l p rest} (hI : Inv s) (hs : s.stack = .store l p :: rest) : rest = [] ∧ Holds s p l := by
  rcases hI.shape with h | ⟨ts, l', p', h⟩
  · rw [hs] at h; exact absurd h (by simp)
  · have he := h.eq
    rw [hs] at he
    cases ts with
    | nil =>
      simp at he
      obtain ⟨⟨h1, h2⟩, h3⟩ := he
      subst h1; subst h2
      exact ⟨h3, h.ok⟩
    | cons a ts =>
      simp at he
      have := h.inn a (List.mem_cons_self ..)
      rw [← he.1] at this
      exact this.elim

theorem cF_full {s : St} (hI : Inv s) {o : Nat} {b : Obj} (hb : s.objs[o]? = some b) (hr : b.ref ≠ 0) (q) : cF q b = pts q b.fields := by
  unfold cF
  rw [((hI.left o b hb).2.1 hr), List.take_length]

/-- storing into a live member -/
theorem cF_store {s : St} (hI : Inv s) {o k : Nat} {b y} (hb : s.objs[o]? = some b) (hr : b.ref ≠ 0) (hy : b.fields[k]? = some y) (p q) :
    sumBy (cF q) (s.objs.set o { b with fields := b.fields.set k p }) + one q y = sumBy (cF q) s.objs + one q p := by
  have h1 := sumBy_set (cF q) s.objs o { b with fields := b.fields.set k p } b hb
  have h2 := cF_full hI hb hr q
  have h3 : cF q { b with fields := b.fields.set k p } = pts q (b.fields.set k p) := by
    unfold cF
    rw [((hI.left o b hb).2.1 hr)]
    rw [show b.fields.length = (b.fields.set k p).length by simp, List.take_length]
  have h4 := pts_set (o := q) hy p
  omega

theorem refOf_upd {s : St} {o : Nat} {b b' : Obj} (hb : s.objs[o]? = some b) (hr : b'.ref = b.ref) (s' : St) (hs : s'.objs = s.objs.set o b') (q) :
    refOf s' q = refOf s q := by
  unfold refOf
  rw [hs, get_set (lt_of_get hb)]
  by_cases hq : o = q
  · subst hq; rw [if_pos rfl, hb]; exact hr
  · rw [if_neg hq]

theorem inv_store {E s} (hI : Inv s) {l p rest} (hs : s.stack = .store l p :: rest) : Inv (St.exec E { s with stack := rest } (.store l p)) := by
  obtain ⟨hr, hok⟩ := shape_store hI hs
  subst hr
  have hsh : Shape s [] l p := ⟨hs, by simp, hok⟩
  have hc := hI.cnt
  have hnf : ∀ o, Task.fields o ∉ s.stack := by intro o; rw [hs]; simp
  cases l with
  | var i =>
    have hi : i < s.vars.length := hok
    obtain ⟨y, hy⟩ : ∃ y, s.vars[i]? = some y := ⟨_, List.getElem?_eq_getElem hi⟩
    simp only [St.exec, St.write]
    rw [if_pos hi, Option.getD_some]
    refine ⟨hI.ub, ?_, ?_, by simp, .inl rfl, hI.nd, hI.dst⟩
    · intro q
      have h1 := hc q
      rw [hole_shape hsh] at h1
      simp only [St.raw, hy, Option.join_some] at h1
      rw [hs] at h1
      simp only [sumBy_cons, sumBy_nil, tk] at h1 ⊢
      have := pts_set (o := q) hy p
      have hre : refOf { s with stack := [], vars := s.vars.set i p } q = refOf s q := rfl
      rw [hre]
      omega
    · intro o b hb
      obtain ⟨a1, a2, a3⟩ := hI.left o b hb
      exact ⟨a1, a2, fun h => .inl ((a3 h).resolve_right (hnf o))⟩
  | fld o k =>
    obtain ⟨⟨b, hb, hb1, hb2⟩, -⟩ := hok
    obtain ⟨y, hy⟩ : ∃ y, b.fields[k]? = some y := ⟨_, List.getElem?_eq_getElem hb2⟩
    simp only [St.exec, St.write, hb]
    rw [if_neg hb1, if_pos hb2, Option.getD_some]
    have href := fun s' hs' q => refOf_upd (b' := { b with fields := b.fields.set k p }) hb rfl s' hs' q
    refine ⟨hI.ub, ?_, ?_, by simp, .inl rfl, hI.nd, ?_⟩
    · intro q
      have h1 := hc q
      rw [hole_shape hsh] at h1
      simp only [St.raw, hb, hy, Option.join_some] at h1
      rw [hs] at h1
      simp only [sumBy_cons, sumBy_nil, tk] at h1 ⊢
      have := cF_store hI hb hb1 hy p q
      rw [href _ rfl]
      omega
    · intro q c hcc
      dsimp only at hcc
      rw [get_set (lt_of_get hb)] at hcc
      split at hcc
      · rename_i h
        subst h
        injection hcc with hcc; subst hcc
        obtain ⟨a1, a2, a3⟩ := hI.left o b hb
        refine ⟨by simpa using a1, fun h => by simpa using a2 h, fun h => absurd h hb1⟩
      · obtain ⟨a1, a2, a3⟩ := hI.left q c hcc
        exact ⟨a1, a2, fun h => .inl ((a3 h).resolve_right (hnf q))⟩
    · intro q
      rw [href _ rfl]
      dsimp only
      rw [List.length_set]
      exact hI.dst q

/-- before `Attach`: the reference that will be stored belongs to nobody yet -/
structure Pre (s : St) (l : Loc) (p : Option Nat) : Prop where
  ub : s.ub = false
  st : s.stack = []
  cnt : ∀ o, refOf s o = pts o s.vars + sumBy (cF o) s.objs + one o p
  left : ∀ (o : Nat) (b : Obj), s.objs[o]? = some b → b.left ≤ b.fields.length ∧ (b.ref ≠ 0 → b.left = b.fields.length) ∧ (b.ref = 0 → b.left = 0)
  ok : Holds s p l
  nd : s.destroyed.Nodup
  dst : ∀ o, o ∈ s.destroyed ↔ o < s.objs.length ∧ refOf s o = 0

theorem read_of {s : St} {p l} (h : Holds s p l) : ∃ y, s.read l = some y ∧ s.raw l = some y := by
  cases l with
  | var i =>
    have hi : i < s.vars.length := h
    exact ⟨_, List.getElem?_eq_getElem hi, List.getElem?_eq_getElem hi⟩
  | fld o k =>
    obtain ⟨⟨b, hb, hb1, hb2⟩, -⟩ := h
    refine ⟨b.fields[k], ?_, ?_⟩
    · simp only [St.read, hb]
      rw [if_neg hb1]
      exact List.getElem?_eq_getElem hb2
    · simp only [St.raw, hb]
      exact List.getElem?_eq_getElem hb2

theorem inv_attach {s : St} {l p} (h : Pre s l p) : ∃ s', s.attach l p = some s' ∧ Inv s' := by
  obtain ⟨y, hy1, hy2⟩ := read_of h.ok
  refine ⟨_, by unfold St.attach; rw [hy1], ?_⟩
  refine ⟨h.ub, ?_, ?_, ?_, ?_, h.nd, h.dst⟩
  · intro q
    show refOf s q + sumBy (hk s q) (relOpt y ++ Task.store l p :: s.stack) = pts q s.vars + sumBy (cF q) s.objs +
      sumBy (tk q) (relOpt y ++ Task.store l p :: s.stack)
    rw [h.st, sumBy_append, sumBy_append, tk_relOpt, hk_relOpt]
    simp only [sumBy_cons, sumBy_nil, hk, tk, hy2, Option.join_some]
    have := h.cnt q
    omega
  · intro o b hb
    obtain ⟨a1, a2, a3⟩ := h.left o b hb
    exact ⟨a1, a2, fun h => .inl (a3 h)⟩
  · intro o ho
    dsimp only at ho
    rw [h.st] at ho
    cases y <;> simp [relOpt] at ho
  · refine .inr ⟨relOpt y, l, p, ?_, ?_, h.ok⟩
    · dsimp only; rw [h.st]
    · intro t ht
      cases y with
      | none => simp [relOpt] at ht
      | some z => simp [relOpt] at ht; rw [ht]; trivial

/-- no operation is running -/
theorem quiet_cnt {s : St} (hI : Inv s) (hs : s.stack = []) (o) : refOf s o = pts o s.vars + sumBy (cF o) s.objs := by
  have := hI.cnt o
  rw [hs] at this
  simpa using this

theorem quiet_left {s : St} (hI : Inv s) (hs : s.stack = []) (o : Nat) (b : Obj) (hb : s.objs[o]? = some b) :
    b.left ≤ b.fields.length ∧ (b.ref ≠ 0 → b.left = b.fields.length) ∧ (b.ref = 0 → b.left = 0) := by
  obtain ⟨a1, a2, a3⟩ := hI.left o b hb
  refine ⟨a1, a2, fun h => (a3 h).resolve_right ?_⟩
  rw [hs]; simp

theorem alive_of_var {s : St} (hI : Inv s) (hs : s.stack = []) {i o : Nat} (h : s.vars[i]? = some (some o)) : ∃ b, s.objs[o]? = some b ∧ b.ref ≠ 0 := by
  have := pts_ge h
  have := quiet_cnt hI hs o
  obtain ⟨b, hb, hr⟩ := of_ref_pos (s := s) (o := o) (by omega)
  exact ⟨b, hb, by omega⟩

theorem resolve_of {s : St} (hI : Inv s) (hs : s.stack = []) {d} (h : Denotes s d) : ∃ l, s.resolve d = some l ∧ Holds s none l := by
  cases d with
  | var i =>
    have hi : i < s.vars.length := h
    exact ⟨.var i, by simp [St.resolve, hi], hi⟩
  | field i k =>
    obtain ⟨o, b, hi, hb, hk⟩ := h
    obtain ⟨c, hc, hc1⟩ := alive_of_var hI hs hi
    rw [hb] at hc
    injection hc with hc; subst hc
    exact ⟨.fld o k, by simp [St.resolve, hi], ⟨b, hb, hc1, hk⟩, .inl ⟨i, hi⟩⟩

/-- a stored pointer points to a live object -/
theorem one_le {s : St} (hI : Inv s) {p l y} (h : Holds s p l) (hy : s.raw l = some y) (q) : one q y ≤ pts q s.vars + sumBy (cF q) s.objs := by
  cases l with
  | var i =>
    have := le_sumBy (one q) s.vars i y hy
    exact Nat.le_trans this (Nat.le_add_right _ _)
  | fld o k =>
    obtain ⟨⟨b, hb, hb1, hb2⟩, -⟩ := h
    have := le_cF hI (k := k) hb hb1 q
    simp only [St.raw, hb] at hy
    rw [hy] at this
    simp only [Option.join_some] at this
    omega

theorem inv_bad_free {E q} {s s' : St} (h : s.start E q = some s') (hI : Inv s') : Inv (s.doOp E q) := by
  unfold St.doOp
  rw [h]
  exact hI

theorem inv_clear {E s} (hI : Inv s) (hs : s.stack = []) {d} (hv : Denotes s d) : Inv (s.doOp E (.clear d)) := by
  obtain ⟨l, hl, hok⟩ := resolve_of hI hs hv
  have hp : Pre s l none := ⟨hI.ub, hs, fun o => by rw [one_none]; exact quiet_cnt hI hs o, quiet_left hI hs, hok, hI.nd, hI.dst⟩
  obtain ⟨s', h1, h2⟩ := inv_attach hp
  exact inv_bad_free (by simp only [St.start, hl]; exact h1) h2

theorem inv_copy {E s} (hI : Inv s) (hs : s.stack = []) {d t} (hv : Denotes s d) (hw : Denotes s t) : Inv (s.doOp E (.copy d t)) := by
  obtain ⟨l, hl, hok⟩ := resolve_of hI hs hv
  obtain ⟨lt, hlt, hokt⟩ := resolve_of hI hs hw
  obtain ⟨y, hy1, hy2⟩ := read_of hokt
  cases y with
  | none =>
    have hp : Pre s l none := ⟨hI.ub, hs, fun o => by rw [one_none]; exact quiet_cnt hI hs o, quiet_left hI hs, hok, hI.nd, hI.dst⟩
    obtain ⟨s', h1, h2⟩ := inv_attach hp
    exact inv_bad_free (by simp only [St.start, hl, hlt, hy1, St.addRef]; exact h1) h2
  | some o =>
    have h1 := one_le hI hokt hy2 o
    rw [one_self] at h1
    have h2 := quiet_cnt hI hs o
    obtain ⟨b, hb, hbr⟩ := of_ref_pos (s := s) (o := o) (by omega)
    have hb0 : b.ref ≠ 0 := by omega
    have href := fun q => refOf_set (b' := { b with ref := b.ref + 1 }) hb s.stack s.destroyed q
    have hp : Pre { s with objs := s.objs.set o { b with ref := b.ref + 1 } } l (some o) := by
      refine ⟨hI.ub, hs, ?_, ?_, ?_, hI.nd, ?_⟩
      · intro q
        rw [show refOf _ q = _ from href q]
        have h3 := quiet_cnt hI hs q
        have h4 := sumBy_set (cF q) s.objs o { b with ref := b.ref + 1 } b hb
        have h5 : cF q { b with ref := b.ref + 1 } = cF q b := rfl
        dsimp only
        by_cases hq : o = q
        · subst hq
          rw [if_pos rfl, one_self]
          omega
        · rw [if_neg hq]
          have h0 : one q (some o) = 0 := by simp [one, hq]
          omega
      · intro q c hc
        dsimp only at hc
        rw [get_set (lt_of_get hb)] at hc
        split at hc
        · injection hc with hc; subst hc
          obtain ⟨a1, a2, a3⟩ := quiet_left hI hs o b hb
          exact ⟨a1, fun _ => a2 hb0, fun h => by dsimp only at h; omega⟩
        · exact quiet_left hI hs q c hc
      · have hok' : Holds s (some o) l := by
          cases l with
          | var i => exact hok
          | fld q k => exact ⟨hok.1, hok.2.imp id fun h => by simp at h⟩
        exact holds_set (b' := { b with ref := b.ref + 1 }) hb rfl _ _ hok' fun k _ => by dsimp only; omega
      · intro q
        rw [show refOf _ q = _ from href q]
        dsimp only
        rw [List.length_set, hI.dst q]
        refine and_congr_right fun _ => ?_
        split
        · rename_i h; subst h; omega
        · rfl
    obtain ⟨s', h3, h4⟩ := inv_attach hp
    refine inv_bad_free ?_ h4
    simp only [St.start, hl, hlt, hy1, St.addRef, hb]
    rw [if_neg hb0]
    exact h3

theorem inv_create {E s} (hI : Inv s) (hs : s.stack = []) {d c} (hv : Denotes s d) : Inv (s.doOp E (.create d c)) := by
  obtain ⟨l, hl, hok⟩ := resolve_of hI hs hv
  have hget : ∀ q (x : Obj), (s.objs ++ [x])[q]? = if q = s.objs.length then some x else s.objs[q]? := by
    intro q x
    by_cases hq : q = s.objs.length
    · rw [if_pos hq, hq]; simp
    · rw [if_neg hq, List.getElem?_append]
      split
      · rfl
      · rw [List.getElem?_eq_none (by simp; omega), List.getElem?_eq_none (by omega)]
  have hp : Pre { s with objs := s.objs ++ [{ cls := c, fields := List.replicate (E c).nfields none, left := (E c).nfields }] } l
      (some s.objs.length) := by
    generalize hx : ({ cls := c, fields := List.replicate (E c).nfields none, left := (E c).nfields } : Obj) = x
    have hx1 : x.ref = 1 := by rw [← hx]
    have hx2 : x.left = x.fields.length := by rw [← hx]; simp
    have hx3 : ∀ q, cF q x = 0 := by
      intro q
      unfold cF
      rw [hx2, List.take_length, ← hx]
      apply sumBy_zero
      intro z hz
      have := List.eq_of_mem_replicate hz
      subst this
      simp
    have href : ∀ q, refOf { s with objs := s.objs ++ [x] } q = if q = s.objs.length then 1 else refOf s q := by
      intro q
      simp only [refOf, hget]
      by_cases hq : q = s.objs.length
      · rw [if_pos hq, if_pos hq]; exact hx1
      · rw [if_neg hq, if_neg hq]
    have hlen0 : refOf s s.objs.length = 0 := by simp [refOf]
    refine ⟨hI.ub, hs, ?_, ?_, ?_, hI.nd, ?_⟩
    · intro q
      rw [href]
      have h3 := quiet_cnt hI hs q
      dsimp only
      rw [sumBy_append]
      simp only [sumBy_cons, sumBy_nil, hx3]
      by_cases hq : q = s.objs.length
      · rw [if_pos hq, ← hq, one_self]
        rw [← hq] at hlen0
        omega
      · rw [if_neg hq]
        have h0 : one q (some s.objs.length) = 0 := by simp [one]; omega
        omega
    · intro q b hb
      dsimp only at hb
      rw [hget] at hb
      split at hb
      · injection hb with hb; subst hb
        exact ⟨by omega, fun _ => hx2, fun h => by omega⟩
      · exact quiet_left hI hs q b hb
    · cases l with
      | var i => exact hok
      | fld q k =>
        obtain ⟨⟨b, hb, hb1, hb2⟩, h2⟩ := hok
        refine ⟨⟨b, ?_, hb1, hb2⟩, h2.imp id fun h => by simp at h⟩
        have := lt_of_get hb
        dsimp only
        rw [hget, if_neg (by omega)]
        exact hb
    · intro q
      rw [href, hI.dst q]
      simp only [List.length_append, List.length_singleton]
      by_cases hq : q = s.objs.length
      · rw [if_pos hq]; omega
      · rw [if_neg hq]; omega
  obtain ⟨s', h3, h4⟩ := inv_attach hp
  refine inv_bad_free ?_ h4
  simp only [St.start, hl]
  exact h3

theorem inv_move {E s} (hI : Inv s) (hs : s.stack = []) {d t} (hv : Denotes s d) (hw : Denotes s t) : Inv (s.doOp E (.move d t)) := by
  obtain ⟨l, hl, hok⟩ := resolve_of hI hs hv
  obtain ⟨lt, hlt, hokt⟩ := resolve_of hI hs hw
  obtain ⟨y, hy1, hy2⟩ := read_of hokt
  cases lt with
  | var i =>
    have hi : i < s.vars.length := hokt
    have hyi : s.vars[i]? = some y := hy2
    have hp : Pre { s with vars := s.vars.set i none } l y := by
      refine ⟨hI.ub, hs, ?_, fun o b hb => quiet_left hI hs o b hb, ?_, hI.nd, hI.dst⟩
      · intro q
        have h3 := quiet_cnt hI hs q
        have h4 := pts_set (o := q) hyi none
        rw [one_none] at h4
        have h5 : refOf { s with vars := s.vars.set i none } q = refOf s q := rfl
        rw [h5]
        dsimp only
        omega
      · cases l with
        | var j =>
          show j < (s.vars.set i none).length
          rw [List.length_set]
          exact hok
        | fld o k =>
          obtain ⟨h1, h2⟩ := hok
          refine ⟨h1, ?_⟩
          obtain ⟨j, hj⟩ := h2.resolve_right (by simp)
          by_cases hij : i = j
          · subst hij
            rw [hyi] at hj
            injection hj with hj
            exact .inr hj
          · refine .inl ⟨j, ?_⟩
            dsimp only
            rw [get_set hi, if_neg hij]
            exact hj
    obtain ⟨s', h3, h4⟩ := inv_attach hp
    refine inv_bad_free ?_ h4
    simp only [St.start, hl, hlt, hy1, St.write]
    rw [if_pos hi]
    exact h3
  | fld o k =>
    obtain ⟨⟨b, hb, hb1, hb2⟩, -⟩ := hokt
    have hyi : b.fields[k]? = some y := by simpa only [St.raw, hb] using hy2
    have href := fun s' hs' q => refOf_upd (b' := { b with fields := b.fields.set k none }) hb rfl s' hs' q
    have hp : Pre { s with objs := s.objs.set o { b with fields := b.fields.set k none } } l y := by
      refine ⟨hI.ub, hs, ?_, ?_, ?_, hI.nd, ?_⟩
      · intro q
        have h3 := quiet_cnt hI hs q
        have h4 := cF_store hI hb hb1 hyi none q
        rw [one_none] at h4
        rw [href _ rfl]
        dsimp only
        omega
      · intro q c hc
        dsimp only at hc
        rw [get_set (lt_of_get hb)] at hc
        split at hc
        · injection hc with hc; subst hc
          obtain ⟨a1, a2, a3⟩ := quiet_left hI hs o b hb
          exact ⟨by simpa using a1, fun h => by simpa using a2 h, a3⟩
        · exact quiet_left hI hs q c hc
      · cases l with
        | var j => exact hok
        | fld q m =>
          obtain ⟨⟨c, hc, hc1, hc2⟩, h2⟩ := hok
          refine ⟨?_, .inl (h2.resolve_right (by simp))⟩
          show ∃ e, (s.objs.set o { b with fields := b.fields.set k none })[q]? = some e ∧ _
          rw [get_set (lt_of_get hb)]
          by_cases hq : o = q
          · subst hq
            rw [if_pos rfl]
            rw [hb] at hc
            injection hc with hc; subst hc
            exact ⟨_, rfl, hc1, by simpa using hc2⟩
          · rw [if_neg hq]
            exact ⟨c, hc, hc1, hc2⟩
      · intro q
        rw [href _ rfl]
        dsimp only
        rw [List.length_set]
        exact hI.dst q
    obtain ⟨s', h3, h4⟩ := inv_attach hp
    refine inv_bad_free ?_ h4
    simp only [St.start, hl, hlt, hy1, St.write, hb]
    rw [if_neg hb1, if_pos hb2]
    exact h3

theorem inv_step {E s s'} (hE : Plain E) (hI : Inv s) (h : Step E s s') : Inv s' := by
  cases h with
  | op q hs hv =>
    cases q with
    | create d c => exact inv_create hI hs hv
    | copy d t => exact inv_copy hI hs hv.1 hv.2
    | move d t => exact inv_move hI hs hv.1 hv.2
    | clear d => exact inv_clear hI hs hv
  | micro hs =>
    unfold St.micro
    split
    · exact hI
    · rename_i t rest hst
      cases t with
      | op q =>
        rcases hI.shape with h | ⟨ts, l, p, h⟩
        · exact absurd h hs
        · have he := h.eq
          rw [hst] at he
          cases ts with
          | nil => simp at he
          | cons a ts =>
            simp at he
            have := h.inn a (List.mem_cons_self ..)
            rw [← he.1] at this
            exact this.elim
      | rel o => exact inv_rel hE hI hst
      | fields o => exact inv_fields hI hst
      | store l p => exact inv_store hI hst

theorem inv_init (n) : Inv { vars := List.replicate n none } := by
  refine ⟨rfl, ?_, by simp, by simp, .inl rfl, by simp, by simp⟩
  intro o
  have h1 : pts o (List.replicate n none) = 0 := by
    apply sumBy_zero
    intro z hz
    have := List.eq_of_mem_replicate hz
    subst this
    simp
  simp [refOf, h1]

theorem inv_steps {E s s'} (hE : Plain E) (hI : Inv s) (h : Steps E s s') : Inv s' := by
  induction h with
  | refl => exact hI
  | tail _ h ih => exact inv_step hE ih h

theorem inv_reach {E n s} (hE : Plain E) (h : Reach E n s) : Inv s := inv_steps hE (inv_init n) h

end Verif.RefGraph
