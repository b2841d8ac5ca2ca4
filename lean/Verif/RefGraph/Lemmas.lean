import Verif.RefGraph.Model
/-! The invariant: every count equals the number of holders, at every moment of every nested call. -/
namespace Verif.RefGraph
open Verif.Common

/-- 1 if the pointer points to `o` -/
def one (o : Nat) (x : Option Nat) : Nat := if x = some o then 1 else 0

theorem pts_eq (o l) : pts o l = sumBy (one o) l := rfl

theorem one_none (o) : one o none = 0 := by simp [one]
theorem one_self (o) : one o (some o) = 1 := by simp [one]

theorem pts_set {o : Nat} {l : List (Option Nat)} {k : Nat} {y : Option Nat} (h : l[k]? = some y) (p) :
    pts o (l.set k p) + one o y = pts o l + one o p := sumBy_set (one o) l k p y h

/-- the pointer at an address, also in a destroyed object -/
def St.raw (s : St) : Loc → Option (Option Nat)
  | .var i => s.vars[i]?
  | .fld o k => match s.objs[o]? with
    | some b => b.fields[k]?
    | none => none

def refOf (s : St) (o : Nat) : Nat :=
  match s.objs[o]? with
  | some b => b.ref
  | none => 0

/-- members that are not destroyed yet -/
def cF (o : Nat) (b : Obj) : Nat := pts o (b.fields.take b.left)

/-- references held by a pending task -/
def tk (o : Nat) : Task → Nat
  | .rel q => one o (some q)
  | .store _ p => one o p
  | _ => 0

/-- slots whose reference is being released -/
def hk (s : St) (o : Nat) : Task → Nat
  | .store l _ => one o (s.raw l).join
  | _ => 0

def inner : Task → Prop
  | .rel _ => True
  | .fields _ => True
  | _ => False

/-- the address of a pending store stays valid -/
def Holds (s : St) (p : Option Nat) : Loc → Prop
  | .var i => i < s.vars.length
  | .fld o k => (∃ b, s.objs[o]? = some b ∧ b.ref ≠ 0 ∧ k < b.fields.length) ∧ ((∃ i : Nat, s.vars[i]? = some (some o)) ∨ p = some o)

structure Shape (s : St) (ts : List Task) (l : Loc) (p : Option Nat) : Prop where
  eq : s.stack = ts ++ [.store l p]
  inn : ∀ t ∈ ts, inner t
  ok : Holds s p l

structure Inv (s : St) : Prop where
  ub : s.ub = false
  cnt : ∀ o, refOf s o + sumBy (hk s o) s.stack = pts o s.vars + sumBy (cF o) s.objs + sumBy (tk o) s.stack
  left : ∀ o b, s.objs[o]? = some b → b.left ≤ b.fields.length ∧ (b.ref ≠ 0 → b.left = b.fields.length) ∧
    (b.ref = 0 → b.left = 0 ∨ Task.fields o ∈ s.stack)
  dead : ∀ o, Task.fields o ∈ s.stack → refOf s o = 0 ∧ o < s.objs.length
  shape : s.stack = [] ∨ ∃ ts l p, Shape s ts l p
  nd : s.destroyed.Nodup
  dst : ∀ o, o ∈ s.destroyed ↔ o < s.objs.length ∧ refOf s o = 0

theorem sumBy_zero {α} {f : α → Nat} {l : List α} (h : ∀ x ∈ l, f x = 0) : sumBy f l = 0 := (sumBy_eq_zero f l).2 h

theorem hk_inner {s o} {ts : List Task} (h : ∀ t ∈ ts, inner t) : sumBy (hk s o) ts = 0 := by
  apply sumBy_zero
  intro t ht
  have := h t ht
  cases t <;> simp [inner] at this <;> rfl

theorem hole_shape {s : St} {ts l p} (h : Shape s ts l p) (o) : sumBy (hk s o) s.stack = one o (s.raw l).join := by
  rw [h.eq, sumBy_append, hk_inner h.inn]
  simp [hk]

theorem pts_ge {o : Nat} {l : List (Option Nat)} {k : Nat} (h : l[k]? = some (some o)) : 1 ≤ pts o l := by
  have := le_sumBy (one o) l k (some o) h
  rw [one_self] at this
  exact this

theorem le_cF {s : St} (hI : Inv s) {q k : Nat} {b : Obj} (hb : s.objs[q]? = some b) (hr : b.ref ≠ 0) (o : Nat) :
    one o b.fields[k]?.join ≤ sumBy (cF o) s.objs := by
  have h1 := le_sumBy (cF o) s.objs q b hb
  have h2 : cF o b = pts o b.fields := by
    unfold cF
    rw [((hI.left q b hb).2.1 hr), List.take_length]
  cases hk : b.fields[k]? with
  | none => simp [one]
  | some y =>
    have := le_sumBy (one o) b.fields k y hk
    rw [h2] at h1
    exact Nat.le_trans this h1

/-- the slot under assignment counts once among the holders -/
theorem hole_le {s : St} (hI : Inv s) (o) :
    sumBy (hk s o) s.stack ≤ pts o s.vars + sumBy (cF o) s.objs := by
  rcases hI.shape with h | ⟨ts, l, p, h⟩
  · rw [h]; simp
  · rw [hole_shape h]
    have hok := h.ok
    cases l with
    | var i =>
      simp only [St.raw]
      cases hv : s.vars[i]? with
      | none => simp [one]
      | some y =>
        have := le_sumBy (one o) s.vars i y hv
        exact Nat.le_trans this (Nat.le_add_right _ _)
    | fld q k =>
      obtain ⟨⟨b, hb, hr, -⟩, -⟩ := hok
      have := le_cF hI (k := k) hb hr o
      simp only [St.raw, hb]
      omega

theorem ref_pos {s : St} (hI : Inv s) {o} (h : 1 ≤ sumBy (tk o) s.stack) : 1 ≤ refOf s o := by
  have := hI.cnt o
  have := hole_le hI o
  omega

theorem refOf_some {s : St} {o b} (h : s.objs[o]? = some b) : refOf s o = b.ref := by simp [refOf, h]

theorem of_ref_pos {s : St} {o} (h : 1 ≤ refOf s o) : ∃ b, s.objs[o]? = some b ∧ b.ref = refOf s o := by
  unfold refOf at h ⊢
  split at h
  · rename_i b hb; exact ⟨b, hb, rfl⟩
  · omega

theorem lt_of_get {α} {l : List α} {i : Nat} {x : α} (h : l[i]? = some x) : i < l.length := (List.getElem?_eq_some_iff.mp h).1

theorem get_set {α} {l : List α} {i j : Nat} {x : α} (h : i < l.length) : (l.set i x)[j]? = if i = j then some x else l[j]? := by
  rw [List.getElem?_set]
  split
  · subst_vars; simp [h]
  · rfl

/-- raw contents do not depend on `ref` and `left` -/
theorem raw_set {s : St} {o b b'} (hb : s.objs[o]? = some b) (hf : b'.fields = b.fields) (st : List Task) (d : List Nat) (l : Loc) :
    St.raw { s with objs := s.objs.set o b', stack := st, destroyed := d } l = s.raw l := by
  cases l with
  | var i => rfl
  | fld q k =>
    simp only [St.raw]
    rw [get_set (lt_of_get hb)]
    by_cases hq : o = q
    · subst hq; rw [if_pos rfl, hb]; simp [hf]
    · rw [if_neg hq]

theorem hk_congr {s s' : St} (h : ∀ l, s'.raw l = s.raw l) (o) (ts : List Task) : sumBy (hk s' o) ts = sumBy (hk s o) ts := by
  induction ts with
  | nil => rfl
  | cons t ts ih =>
    simp only [sumBy_cons, ih]
    cases t <;> simp [hk, h]

theorem refOf_set {s : St} {o b b'} (hb : s.objs[o]? = some b) (st : List Task) (d : List Nat) (q : Nat) :
    refOf { s with objs := s.objs.set o b', stack := st, destroyed := d } q = if o = q then b'.ref else refOf s q := by
  simp only [refOf]
  rw [get_set (lt_of_get hb)]
  by_cases hq : o = q
  · rw [if_pos hq, if_pos hq]
  · rw [if_neg hq, if_neg hq]

/-- the rest of the stack when the first task is an inner one -/
theorem shape_tail {s : St} {t rest} (hI : Inv s) (hs : s.stack = t :: rest) (ht : inner t) :
    ∃ ts l p, rest = ts ++ [.store l p] ∧ (∀ t ∈ ts, inner t) ∧ Holds s p l := by
  rcases hI.shape with h | ⟨ts, l, p, h⟩
  · rw [hs] at h; exact absurd h (by simp)
  · have he := h.eq
    rw [hs] at he
    cases ts with
    | nil =>
      simp at he
      rw [he.1] at ht
      exact ht.elim
    | cons a ts =>
      simp at he
      exact ⟨ts, l, p, he.2, fun t ht => h.inn t (List.mem_cons_of_mem _ ht), h.ok⟩

theorem holds_set {s : St} {o b b'} (hb : s.objs[o]? = some b) (hf : b'.fields = b.fields) (st : List Task) (d : List Nat)
    {p l} (h : Holds s p l) (hr : ∀ k, l = .fld o k → b'.ref ≠ 0) : Holds { s with objs := s.objs.set o b', stack := st, destroyed := d } p l := by
  cases l with
  | var i => exact h
  | fld q k =>
    obtain ⟨⟨c, hc, hc1, hc2⟩, h2⟩ := h
    refine ⟨?_, h2⟩
    show ∃ c, (s.objs.set o b')[q]? = some c ∧ _
    rw [get_set (lt_of_get hb)]
    by_cases hq : o = q
    · subst hq
      rw [if_pos rfl]
      rw [hb] at hc
      injection hc with hc; subst hc
      exact ⟨b', rfl, hr k rfl, by rw [hf]; exact hc2⟩
    · rw [if_neg hq]
      exact ⟨c, hc, hc1, hc2⟩

/-- the owner of a member under assignment has a reference besides the one being released -/
theorem owner_two {s : St} (hI : Inv s) {o k ts p} (h : Shape s ts (.fld o k) p) (hr : 1 ≤ sumBy (tk o) ts) : 2 ≤ refOf s o := by
  obtain ⟨⟨b, hb, hb1, hb2⟩, h2⟩ := h.ok
  have hc := hI.cnt o
  rw [hole_shape h] at hc
  have hle := le_cF hI (k := k) hb hb1 o
  simp only [St.raw, hb] at hc
  rw [h.eq, sumBy_append] at hc
  simp only [sumBy_cons, sumBy_nil, tk] at hc
  rcases h2 with ⟨i, hi⟩ | hp
  · have := pts_ge hi
    omega
  · rw [hp, one_self] at hc
    omega

theorem inv_rel {E s} (hE : Plain E) (hI : Inv s) {o rest} (hs : s.stack = .rel o :: rest) : Inv (St.exec E { s with stack := rest } (.rel o)) := by
  have htk : 1 ≤ sumBy (tk o) s.stack := by rw [hs]; simp [tk, one_self]
  obtain ⟨b, hb, hbr⟩ := of_ref_pos (ref_pos hI htk)
  have hpos := ref_pos hI htk
  obtain ⟨ts, l, p, hrest, hinn, hok⟩ := shape_tail hI hs trivial
  have hcnt := hI.cnt
  have hleft := hI.left o b hb
  have hsum : ∀ (b' : Obj) q, b'.fields = b.fields → b'.left = b.left → sumBy (cF q) (s.objs.set o b') = sumBy (cF q) s.objs := by
    intro b' q h1 h2
    have := sumBy_set (cF q) s.objs o b' b hb
    have h3 : cF q b' = cF q b := by simp only [cF, h1, h2]
    omega
  unfold St.exec
  simp only [hb]
  rw [if_neg (by omega)]
  by_cases h1 : b.ref = 1
  · rw [if_pos h1, hE, List.map_nil, List.nil_append]
    have hno : ∀ k, l = .fld o k → False := by
      intro k hk
      subst hk
      have hsh : Shape s (.rel o :: ts) (.fld o k) p :=
        ⟨by rw [hs, hrest]; simp, by intro t ht; rcases List.mem_cons.mp ht with h | h; · rw [h]; trivial
                                     · exact hinn t h, hok⟩
      have := owner_two hI hsh (by simp [tk, one_self])
      omega
    have hraw := fun l => raw_set (b' := { b with ref := 0 }) hb rfl (Task.fields o :: rest) (s.destroyed ++ [o]) l
    refine ⟨hI.ub, ?_, ?_, ?_, ?_, ?_, ?_⟩
    · intro q
      show refOf { s with objs := s.objs.set o { b with ref := 0 }, stack := .fields o :: rest, destroyed := s.destroyed ++ [o] } q +
        sumBy (hk _ q) (Task.fields o :: rest) = pts q s.vars + sumBy (cF q) (s.objs.set o { b with ref := 0 }) + sumBy (tk q) (Task.fields o :: rest)
      rw [refOf_set hb, hk_congr hraw, hsum { b with ref := 0 } q rfl rfl]
      have := hcnt q
      rw [hs] at this
      simp only [sumBy_cons, hk, tk] at this ⊢
      by_cases hq : o = q
      · subst hq
        rw [if_pos rfl]
        rw [one_self] at this
        omega
      · rw [if_neg hq]
        have h0 : one q (some o) = 0 := by simp [one, hq]
        omega
    · intro q c hc
      dsimp only at hc
      rw [get_set (lt_of_get hb)] at hc
      split at hc
      · injection hc with hc; subst hc
        rename_i hq
        subst hq
        exact ⟨hleft.1, fun h => absurd rfl h, fun _ => .inr (List.mem_cons_self ..)⟩
      · obtain ⟨a1, a2, a3⟩ := hI.left q c hc
        refine ⟨a1, a2, fun h => (a3 h).imp id fun hm => ?_⟩
        rw [hs] at hm
        rcases List.mem_cons.mp hm with hm | hm
        · exact absurd hm (by simp)
        · exact List.mem_cons_of_mem _ hm
    · intro q hq
      dsimp only at hq
      have hlen : (s.objs.set o { b with ref := 0 }).length = s.objs.length := List.length_set ..
      rw [show refOf _ q = _ from refOf_set (b' := { b with ref := 0 }) hb (Task.fields o :: rest) (s.destroyed ++ [o]) q]
      refine ⟨?_, ?_⟩
      · split
        · rfl
        · rename_i hne
          rcases List.mem_cons.mp hq with h | h
          · injection h with h; exact absurd h.symm hne
          · exact (hI.dead q (by rw [hs]; exact List.mem_cons_of_mem _ h)).1
      · dsimp only
        rw [hlen]
        rcases List.mem_cons.mp hq with h | h
        · injection h with h; subst h; exact lt_of_get hb
        · exact (hI.dead q (by rw [hs]; exact List.mem_cons_of_mem _ h)).2
    · refine .inr ⟨.fields o :: ts, l, p, ⟨?_, ?_, ?_⟩⟩
      · dsimp only; rw [hrest]; simp
      · intro t ht
        rcases List.mem_cons.mp ht with h | h
        · rw [h]; trivial
        · exact hinn t h
      · exact holds_set (b' := { b with ref := 0 }) hb rfl _ _ hok fun k hk => (hno k hk).elim
    · have : o ∉ s.destroyed := fun h => by have := ((hI.dst o).1 h).2; omega
      refine List.nodup_append.mpr ⟨hI.nd, by simp, ?_⟩
      intro a ha c hc hac
      simp at hc
      subst hac; subst hc
      exact this ha
    · intro q
      rw [show refOf _ q = _ from refOf_set (b' := { b with ref := 0 }) hb (Task.fields o :: rest) (s.destroyed ++ [o]) q]
      simp only [List.length_set, List.mem_append, List.mem_singleton]
      rw [hI.dst q]
      constructor
      · rintro (⟨h1, h2⟩ | h)
        · refine ⟨h1, ?_⟩
          split <;> first | rfl | exact h2
        · subst h
          exact ⟨lt_of_get hb, by simp⟩
      · rintro ⟨h1, h2⟩
        split at h2
        · rename_i h; exact .inr h.symm
        · exact .inl ⟨h1, h2⟩
  · rw [if_neg h1]
    have hraw := fun l => raw_set (b' := { b with ref := b.ref - 1 }) hb rfl rest s.destroyed l
    refine ⟨hI.ub, ?_, ?_, ?_, ?_, hI.nd, ?_⟩
    · intro q
      show refOf { s with objs := s.objs.set o { b with ref := b.ref - 1 }, stack := rest, destroyed := s.destroyed } q +
        sumBy (hk _ q) rest = pts q s.vars + sumBy (cF q) (s.objs.set o { b with ref := b.ref - 1 }) + sumBy (tk q) rest
      rw [refOf_set hb, hk_congr hraw, hsum { b with ref := b.ref - 1 } q rfl rfl]
      have := hcnt q
      rw [hs] at this
      simp only [sumBy_cons, hk, tk] at this ⊢
      by_cases hq : o = q
      · subst hq
        rw [if_pos rfl]
        rw [one_self] at this
        omega
      · rw [if_neg hq]
        have h0 : one q (some o) = 0 := by simp [one, hq]
        omega
    · intro q c hc
      dsimp only at hc
      rw [get_set (lt_of_get hb)] at hc
      split at hc
      · injection hc with hc; subst hc
        exact ⟨hleft.1, fun _ => hleft.2.1 (by omega), fun h => by dsimp only at h; omega⟩
      · obtain ⟨a1, a2, a3⟩ := hI.left q c hc
        refine ⟨a1, a2, fun h => (a3 h).imp id fun hm => ?_⟩
        rw [hs] at hm
        rcases List.mem_cons.mp hm with hm | hm
        · exact absurd hm (by simp)
        · exact hm
    · intro q hq
      have := hI.dead q (by rw [hs]; exact List.mem_cons_of_mem _ hq)
      rw [show refOf _ q = _ from refOf_set (b' := { b with ref := b.ref - 1 }) hb rest s.destroyed q]
      refine ⟨?_, by simpa using this.2⟩
      split
      · rename_i h; subst h; omega
      · exact this.1
    · exact .inr ⟨ts, l, p, hrest, hinn, holds_set (b' := { b with ref := b.ref - 1 }) hb rfl _ _ hok fun k _ => by dsimp only; omega⟩
    · intro q
      rw [show refOf _ q = _ from refOf_set (b' := { b with ref := b.ref - 1 }) hb rest s.destroyed q]
      simp only [List.length_set]
      rw [hI.dst q]
      refine and_congr_right fun _ => ?_
      split
      · rename_i h; subst h; omega
      · rfl

theorem tk_relOpt (o y) : sumBy (tk o) (relOpt y) = one o y := by
  cases y with
  | none => simp [relOpt, one]
  | some q => simp [relOpt, tk]

theorem hk_relOpt (s o y) : sumBy (hk s o) (relOpt y) = 0 := by
  cases y <;> simp [relOpt, hk]

theorem inv_fields {E s} (hI : Inv s) {o rest} (hs : s.stack = .fields o :: rest) : Inv (St.exec E { s with stack := rest } (.fields o)) := by
  have hd := hI.dead o (by rw [hs]; exact List.mem_cons_self ..)
  obtain ⟨b, hb⟩ : ∃ b, s.objs[o]? = some b := ⟨_, List.getElem?_eq_getElem hd.2⟩
  have hb0 : b.ref = 0 := by rw [← refOf_some hb]; exact hd.1
  obtain ⟨ts, l, p, hrest, hinn, hok⟩ := shape_tail hI hs trivial
  obtain ⟨l1, l2, l3⟩ := hI.left o b hb
  have hno : ∀ k, l = .fld o k → False := by
    intro k hk
    subst hk
    obtain ⟨⟨c, hc, hc1, -⟩, -⟩ := hok
    rw [hb] at hc
    injection hc with hc; subst hc
    exact hc1 hb0
  unfold St.exec
  simp only [hb]
  split
  · rename_i h0
    refine ⟨hI.ub, ?_, ?_, ?_, .inr ⟨ts, l, p, hrest, hinn, hok⟩, hI.nd, hI.dst⟩
    · intro q
      have := hI.cnt q
      rw [hs] at this
      simp only [sumBy_cons, hk, tk, Nat.zero_add] at this
      exact this
    · intro q c hc
      obtain ⟨a1, a2, a3⟩ := hI.left q c hc
      refine ⟨a1, a2, fun h => ?_⟩
      rcases a3 h with hm | hm
      · exact .inl hm
      · rw [hs] at hm
        rcases List.mem_cons.mp hm with hm | hm
        · injection hm with hm; subst hm
          dsimp only at hc
          rw [hb] at hc
          injection hc with hc; subst hc
          exact .inl h0
        · exact .inr hm
    · intro q hq
      exact hI.dead q (by rw [hs]; exact List.mem_cons_of_mem _ hq)
  · rename_i n hn
    have hlt : n < b.fields.length := by omega
    obtain ⟨y, hy⟩ : ∃ y, b.fields[n]? = some y := ⟨_, List.getElem?_eq_getElem hlt⟩
    simp only [hy, Option.join_some]
    have hraw := fun l => raw_set (b' := { b with left := n }) hb rfl (relOpt y ++ Task.fields o :: rest) s.destroyed l
    have href := fun q => refOf_set (b' := { b with left := n }) hb (relOpt y ++ Task.fields o :: rest) s.destroyed q
    have href' : ∀ q, (if o = q then b.ref else refOf s q) = refOf s q := by
      intro q
      split
      · rename_i h; subst h; rw [refOf_some hb]
      · rfl
    refine ⟨hI.ub, ?_, ?_, ?_, ?_, hI.nd, ?_⟩
    · intro q
      show refOf { s with objs := s.objs.set o { b with left := n }, stack := relOpt y ++ .fields o :: rest, destroyed := s.destroyed } q +
        sumBy (hk _ q) (relOpt y ++ Task.fields o :: rest) = pts q s.vars + sumBy (cF q) (s.objs.set o { b with left := n }) +
        sumBy (tk q) (relOpt y ++ Task.fields o :: rest)
      rw [href, hk_congr hraw]
      dsimp only
      rw [href', sumBy_append, sumBy_append, tk_relOpt, hk_relOpt]
      have h1 := hI.cnt q
      rw [hs] at h1
      simp only [sumBy_cons, hk, tk, Nat.zero_add] at h1 ⊢
      have h2 := sumBy_set (cF q) s.objs o { b with left := n } b hb
      have h3 : cF q b = cF q { b with left := n } + one q y := by
        simp only [cF, hn]
        rw [List.take_succ, hy, pts_eq, pts_eq, sumBy_append]
        simp
      omega
    · intro q c hc
      dsimp only at hc
      rw [get_set (lt_of_get hb)] at hc
      split at hc
      · injection hc with hc; subst hc
        rename_i hq
        subst hq
        exact ⟨by dsimp only; omega, fun h => absurd hb0 h, fun _ => .inr (List.mem_append_right _ (List.mem_cons_self ..))⟩
      · obtain ⟨a1, a2, a3⟩ := hI.left q c hc
        refine ⟨a1, a2, fun h => (a3 h).imp id fun hm => List.mem_append_right _ ?_⟩
        rw [hs] at hm
        exact hm
    · intro q hq
      dsimp only at hq
      rw [show refOf _ q = _ from href q]
      dsimp only
      rw [href']
      have : Task.fields q ∈ s.stack := by
        rw [hs]
        rcases List.mem_append.mp hq with h | h
        · cases y <;> simp [relOpt] at h
        · exact h
      have := hI.dead q this
      exact ⟨this.1, by simpa using this.2⟩
    · refine .inr ⟨relOpt y ++ .fields o :: ts, l, p, ⟨?_, ?_, ?_⟩⟩
      · dsimp only; rw [hrest]; simp
      · intro t ht
        rcases List.mem_append.mp ht with h | h
        · cases y with
          | none => simp [relOpt] at h
          | some z => simp [relOpt] at h; rw [h]; trivial
        · rcases List.mem_cons.mp h with h | h
          · rw [h]; trivial
          · exact hinn t h
      · exact holds_set (b' := { b with left := n }) hb rfl _ _ hok fun k hk => (hno k hk).elim
    · intro q
      rw [show refOf _ q = _ from href q]
      dsimp only
      rw [href', List.length_set]
      exact hI.dst q

end Verif.RefGraph
