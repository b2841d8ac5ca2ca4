import Verif.RefGraph.Ops
/-! Cycles, termination, and objects that nobody reaches. -/
namespace Verif.RefGraph
open Verif.Common

/-- live object `a` has a member that points to `b` -/
def Owns (s : St) (a b : Nat) : Prop := ∃ x, s.objs[a]? = some x ∧ x.ref ≠ 0 ∧ some b ∈ x.fields

/-- from `a` to `b` through one or more members of live objects -/
inductive Path (s : St) : Nat → Nat → Prop
  | one {a b} : Owns s a b → Path s a b
  | cons {a b c} : Owns s a b → Path s b c → Path s a c

theorem Path.snoc {s a b c} (h : Path s a b) (h2 : Owns s b c) : Path s a c := by
  induction h with
  | one h => exact .cons h (.one h2)
  | cons h _ ih => exact .cons h (ih h2)

theorem nodup_le {n : Nat} : ∀ {l : List Nat}, l.Nodup → (∀ x ∈ l, x < n) → l.length ≤ n := by
  induction n with
  | zero =>
    intro l _ h
    cases l with
    | nil => simp
    | cons a l => have := h a (by simp); omega
  | succ n ih =>
    intro l hn h
    by_cases hm : n ∈ l
    · have h1 := ih (hn.erase n) (by
        intro x hx
        have h2 := (hn.mem_erase_iff).mp hx
        have := h x h2.2
        omega)
      rw [List.length_erase_of_mem hm] at h1
      omega
    · have := ih hn (by
        intro x hx
        have := h x hx
        have : x ≠ n := fun e => hm (e ▸ hx)
        omega)
      omega

/-- going up from owner to owner inside a finite set without a top ends in a cycle -/
theorem cycle_of {s : St} {P : Nat → Prop} {n : Nat} (hn : ∀ a, P a → a < n) (hup : ∀ a, P a → ∃ b, P b ∧ Owns s b a) (o : Nat) :
    ∀ (fuel : Nat) (h : Nat) (l : List Nat), n ≤ l.length + fuel → (h :: l).Nodup → (∀ x ∈ h :: l, P x) → (∀ x ∈ l, Path s h x) → o ∈ h :: l →
      ∃ c, P c ∧ Path s c c ∧ (c = o ∨ Path s c o) := by
  intro fuel
  induction fuel with
  | zero =>
    intro h l hf hnd hP _ _
    have := nodup_le hnd (fun x hx => hn x (hP x hx))
    simp at this
    omega
  | succ fuel ih =>
    intro h l hf hnd hP hpath ho
    obtain ⟨b, hPb, hb⟩ := hup h (hP h (by simp))
    have hto : h = o ∨ Path s h o := by
      rcases List.mem_cons.mp ho with h1 | h1
      · exact .inl h1.symm
      · exact .inr (hpath o h1)
    by_cases hm : b ∈ h :: l
    · refine ⟨h, hP h (by simp), ?_, hto⟩
      rcases List.mem_cons.mp hm with h1 | h1
      · rw [h1] at hb; exact .one hb
      · exact (hpath b h1).snoc hb
    · refine ih b (h :: l) (by simp; omega) (List.nodup_cons.mpr ⟨hm, hnd⟩) ?_ ?_ (List.mem_cons_of_mem _ ho)
      · intro x hx
        rcases List.mem_cons.mp hx with h1 | h1
        · rw [h1]; exact hPb
        · exact hP x h1
      · intro x hx
        rcases List.mem_cons.mp hx with h1 | h1
        · rw [h1]; exact .one hb
        · exact .cons hb (hpath x h1)

theorem sumBy_congr {α} {f g : α → Nat} : ∀ {l : List α}, (∀ x ∈ l, f x = g x) → sumBy f l = sumBy g l
  | [], _ => rfl
  | x :: l, h => by
    simp only [sumBy_cons]
    rw [h x (by simp), sumBy_congr fun y hy => h y (List.mem_cons_of_mem _ hy)]

theorem quiet_holders {s : St} (hI : Inv s) (hs : s.stack = []) (o) : refOf s o = holders s o := by
  rw [quiet_cnt hI hs o]
  unfold holders
  congr 1
  apply sumBy_congr
  intro b hb
  obtain ⟨i, hi⟩ := List.mem_iff_getElem?.mp hb
  obtain ⟨-, h2, h3⟩ := quiet_left hI hs i b hi
  split
  · rename_i h
    simp [cF, h3 h, pts]
  · rename_i h
    exact cF_full hI hi h o

theorem pts_pos {o : Nat} {l : List (Option Nat)} (h : 0 < pts o l) : some o ∈ l := by
  obtain ⟨x, hx, h1⟩ := sumBy_pos _ l h
  by_cases hx1 : x = some o
  · rw [← hx1]; exact hx
  · simp [hx1] at h1

/-- a live object has a holder -/
theorem holder_of {s : St} (hI : Inv s) (hs : s.stack = []) {o} (ha : Alive s o) :
    (∃ i : Nat, s.vars[i]? = some (some o)) ∨ ∃ a, Owns s a o := by
  obtain ⟨b, hb, hb0⟩ := ha
  have h := quiet_holders hI hs o
  rw [refOf_some hb] at h
  unfold holders at h
  by_cases h1 : 0 < pts o s.vars
  · left
    exact List.mem_iff_getElem?.mp (pts_pos h1)
  · right
    have h2 : 0 < sumBy (fun b : Obj => if b.ref = 0 then 0 else pts o b.fields) s.objs := by omega
    obtain ⟨x, hx, h3⟩ := sumBy_pos _ _ h2
    obtain ⟨a, ha⟩ := List.mem_iff_getElem?.mp hx
    split at h3
    · omega
    · rename_i hr
      exact ⟨a, x, ha, hr, pts_pos h3⟩

theorem reach_alive {s : St} (hI : Inv s) (hs : s.stack = []) {o} (h : Reachable s o) : Alive s o := by
  induction h with
  | var h => exact alive_of_var hI hs h
  | @field q p b _ hb hp ih =>
    obtain ⟨c, hc, hc0⟩ := ih
    rw [hb] at hc
    injection hc with hc; subst hc
    obtain ⟨k, hk⟩ := List.mem_iff_getElem?.mp hp
    have h1 := le_cF hI (k := k) hb hc0 p
    rw [hk, Option.join_some, one_self] at h1
    have h2 := quiet_cnt hI hs p
    obtain ⟨b', hb', hr⟩ := of_ref_pos (s := s) (o := p) (by omega)
    exact ⟨b', hb', by omega⟩

theorem leak_cycle {s : St} (hI : Inv s) (hs : s.stack = []) {o} (ha : Alive s o) (hn : ¬ Reachable s o) :
    ∃ c, (Alive s c ∧ ¬ Reachable s c) ∧ Path s c c ∧ (c = o ∨ Path s c o) := by
  refine cycle_of (P := fun a => Alive s a ∧ ¬ Reachable s a) (n := s.objs.length) ?_ ?_ o s.objs.length o [] (by simp) (by simp) ?_ (by simp) (by simp)
  · rintro a ⟨⟨b, hb, -⟩, -⟩
    exact lt_of_get hb
  · rintro a ⟨h1, h2⟩
    rcases holder_of hI hs h1 with ⟨i, hi⟩ | ⟨b, x, hb, hx, hm⟩
    · exact absurd (.var hi) h2
    · exact ⟨b, ⟨⟨x, hb, hx⟩, fun h => h2 (.field h hb hm)⟩, x, hb, hx, hm⟩
  · intro x hx
    simp at hx
    subst hx
    exact ⟨ha, hn⟩

/-! ### Termination -/

def wt (b : Obj) : Nat := (if b.ref = 0 then 0 else 1) + 2 * b.left

/-- decreases with every step inside the calls -/
def mu (s : St) : Nat := sumBy wt s.objs + s.stack.length

theorem relOpt_le (y) : (relOpt y).length ≤ 1 := by cases y <;> simp [relOpt]

theorem mu_micro {E s} (hE : Plain E) (hI : Inv s) (hs : s.stack ≠ []) : mu (s.micro E) < mu s := by
  have hI' : Inv (s.micro E) := inv_step hE hI (.micro s hs)
  have hub := hI'.ub
  unfold St.micro at hub ⊢
  split
  · rename_i h; exact absurd h hs
  rename_i t rest hst
  rw [hst] at hub
  have hmu : mu s = sumBy wt s.objs + (rest.length + 1) := by unfold mu; rw [hst]; simp
  rw [hmu]
  cases t with
  | op q =>
    rcases hI.shape with h | ⟨ts, l, p, h⟩
    · exact absurd h hs
    · have he := h.eq
      rw [hst] at he
      cases ts with
      | nil => simp at he
      | cons a ts =>
        simp at he
        have := h.inn a (List.mem_cons_self ..)
        rw [← he.1] at this
        exact this.elim
  | rel o =>
    unfold St.exec at hub ⊢
    dsimp only at hub ⊢
    cases hb : s.objs[o]? with
    | none => simp [hb, St.bad] at hub
    | some b =>
      simp only [hb] at hub ⊢
      by_cases h0 : b.ref = 0
      · rw [if_pos h0] at hub; simp [St.bad] at hub
      · rw [if_neg h0]
        by_cases h1 : b.ref = 1
        · rw [if_pos h1, hE]
          have := sumBy_set wt s.objs o { b with ref := 0 } b hb
          simp only [mu, List.map_nil, List.nil_append, List.length_cons]
          simp only [wt, h0, if_true, if_false] at this
          omega
        · rw [if_neg h1]
          have := sumBy_set wt s.objs o { b with ref := b.ref - 1 } b hb
          have h2 : b.ref - 1 ≠ 0 := by omega
          simp only [mu]
          simp only [wt, h0, h2, if_false] at this
          omega
  | fields o =>
    unfold St.exec at hub ⊢
    dsimp only at hub ⊢
    cases hb : s.objs[o]? with
    | none => simp [hb, St.bad] at hub
    | some b =>
      simp only []
      split
      · simp only [mu]; omega
      · rename_i n hn
        have := sumBy_set wt s.objs o { b with left := n } b hb
        have h2 := relOpt_le (b.fields[n]?.join)
        simp only [mu, List.length_append, List.length_cons]
        have h3 : wt b = wt { b with left := n } + 2 := by simp only [wt, hn]; omega
        omega
  | store l p =>
    unfold St.exec at hub ⊢
    cases hw : St.write { s with stack := rest } l p with
    | none => simp [hw, St.bad] at hub
    | some s' =>
      dsimp only
      rw [hw, Option.getD_some]
      cases l with
      | var i =>
        simp only [St.write] at hw
        split at hw
        · injection hw with hw; subst hw
          simp only [mu]; omega
        · cases hw
      | fld o k =>
        simp only [St.write] at hw
        cases hb : s.objs[o]? with
        | none => simp [hb] at hw
        | some b =>
          simp only [hb] at hw
          split at hw
          · cases hw
          split at hw
          · injection hw with hw; subst hw
            have := sumBy_set wt s.objs o { b with fields := b.fields.set k p } b hb
            have h3 : wt { b with fields := b.fields.set k p } = wt b := rfl
            simp only [mu]
            omega
          · cases hw

/-- `k` steps inside the calls -/
def run (E : Nat → Cls) : Nat → St → St
  | 0, s => s
  | k + 1, s => run E k (s.micro E)

theorem terminates {E} (hE : Plain E) : ∀ (m : Nat) {s : St}, Inv s → mu s ≤ m → ∃ k, k ≤ mu s ∧ (run E k s).stack = [] := by
  intro m
  induction m with
  | zero =>
    intro s _ h
    refine ⟨0, Nat.zero_le _, ?_⟩
    unfold mu at h
    exact List.eq_nil_of_length_eq_zero (by simp only [run]; omega)
  | succ m ih =>
    intro s hI h
    by_cases hs : s.stack = []
    · exact ⟨0, Nat.zero_le _, hs⟩
    · have hlt := mu_micro hE hI hs
      obtain ⟨k, hk, hk2⟩ := ih (inv_step hE hI (.micro s hs)) (by omega)
      exact ⟨k + 1, by omega, hk2⟩

theorem micro_nil {E} {s : St} (h : s.stack = []) : s.micro E = s := by
  unfold St.micro; rw [h]

theorem steps_trans {E s t u} (h1 : Steps E s t) (h2 : Steps E t u) : Steps E s u := by
  induction h2 with
  | refl => exact h1
  | tail _ h ih => exact .tail ih h

theorem run_steps {E} : ∀ (k : Nat) (s : St), Steps E s (run E k s)
  | 0, s => .refl s
  | k + 1, s => by
    unfold run
    by_cases hs : s.stack = []
    · rw [micro_nil hs]; exact run_steps k s
    · exact steps_trans (.tail (.refl s) (.micro s hs)) (run_steps k _)

/-! ### Objects nobody reaches stay -/

def tclean (U : Nat → Prop) : Task → Prop
  | .rel o => ¬ U o
  | .fields o => ¬ U o
  | .store l p => (∀ o, p = some o → ¬ U o) ∧ ∀ o k, l = .fld o k → ¬ U o
  | .op _ => True

/-- nothing outside `U` points into `U`, and `U` is as it was -/
structure Keep (U : Nat → Prop) (objs0 : List Obj) (s : St) : Prop where
  same : ∀ o, U o → s.objs[o]? = objs0[o]?
  bnd : ∀ o, U o → o < s.objs.length
  vars : ∀ i o : Nat, s.vars[i]? = some (some o) → ¬ U o
  mem : ∀ (q : Nat) (b : Obj) (k o : Nat), s.objs[q]? = some b → ¬ U q → k < b.left → b.fields[k]? = some (some o) → ¬ U o
  st : ∀ t ∈ s.stack, tclean U t

theorem relOpt_clean {U : Nat → Prop} {y} (h : ∀ o, y = some o → ¬ U o) : ∀ t ∈ relOpt y, tclean U t := by
  intro t ht
  cases y with
  | none => simp [relOpt] at ht
  | some o => simp [relOpt] at ht; rw [ht]; exact h o rfl

theorem keep_set {U objs0} {s : St} {o : Nat} {b b' : Obj} (h : Keep U objs0 s) (hb : s.objs[o]? = some b) (ho : ¬ U o)
    (hm : ∀ k q, k < b'.left → b'.fields[k]? = some (some q) → ¬ U q) (st : List Task) (hst : ∀ t ∈ st, tclean U t) (d : List Nat) :
    Keep U objs0 { s with objs := s.objs.set o b', stack := st, destroyed := d } := by
  refine ⟨?_, ?_, h.vars, ?_, hst⟩
  · intro q hq
    dsimp only
    rw [get_set (lt_of_get hb), if_neg (fun e : o = q => ho (e ▸ hq))]
    exact h.same q hq
  · intro q hq
    dsimp only
    rw [List.length_set]
    exact h.bnd q hq
  · intro q c k p hc hq hk hp
    dsimp only at hc
    rw [get_set (lt_of_get hb)] at hc
    split at hc
    · injection hc with hc; subst hc
      exact hm k p hk hp
    · exact h.mem q c k p hc hq hk hp

theorem keep_write {U objs0} {s s' : St} {l p} (h : Keep U objs0 s) (hp : ∀ o, p = some o → ¬ U o) (hl : ∀ o k, l = .fld o k → ¬ U o)
    (hw : s.write l p = some s') : Keep U objs0 s' := by
  cases l with
  | var i =>
    simp only [St.write] at hw
    split at hw
    · rename_i hi
      injection hw with hw; subst hw
      refine ⟨h.same, h.bnd, ?_, h.mem, h.st⟩
      intro j o hj
      dsimp only at hj
      rw [get_set hi] at hj
      split at hj
      · injection hj with hj; exact hp o hj
      · exact h.vars j o hj
    · cases hw
  | fld o k =>
    simp only [St.write] at hw
    cases hb : s.objs[o]? with
    | none => simp [hb] at hw
    | some b =>
      simp only [hb] at hw
      split at hw
      · cases hw
      split at hw
      · rename_i hk
        injection hw with hw; subst hw
        refine keep_set (b' := { b with fields := b.fields.set k p }) h hb (hl o k rfl) ?_ _ h.st _
        intro j q hj hq
        dsimp only at hj hq
        rw [get_set hk] at hq
        split at hq
        · injection hq with hq; exact hp q hq
        · exact h.mem o b j q hb (hl o k rfl) hj hq
      · cases hw

/-- what a live slot outside `U` holds is outside `U` -/
theorem keep_read {U objs0} {s : St} {l y} (hI : ∀ (o : Nat) (b : Obj), s.objs[o]? = some b → b.ref ≠ 0 → b.left = b.fields.length)
    (h : Keep U objs0 s) (hl : ∀ o k, l = .fld o k → ¬ U o) (hr : s.read l = some y) : ∀ o, y = some o → ¬ U o := by
  intro o ho
  subst ho
  cases l with
  | var i => exact h.vars i o hr
  | fld q k =>
    simp only [St.read] at hr
    cases hb : s.objs[q]? with
    | none => simp [hb] at hr
    | some b =>
      simp only [hb] at hr
      split at hr
      · cases hr
      · rename_i h0
        have := lt_of_get hr
        exact h.mem q b k o hb (hl q k rfl) (by rw [hI q b hb h0]; exact this) hr

theorem keep_attach {U objs0} {s s' : St} {l p} (hI : ∀ (o : Nat) (b : Obj), s.objs[o]? = some b → b.ref ≠ 0 → b.left = b.fields.length)
    (h : Keep U objs0 s) (hp : ∀ o, p = some o → ¬ U o)
    (hl : ∀ o k, l = .fld o k → ¬ U o) (ha : s.attach l p = some s') : Keep U objs0 s' := by
  unfold St.attach at ha
  split at ha
  · cases ha
  · rename_i y hy
    injection ha with ha; subst ha
    refine ⟨h.same, h.bnd, h.vars, h.mem, ?_⟩
    intro t ht
    rcases List.mem_append.mp ht with h1 | h1
    · exact relOpt_clean (keep_read hI h hl hy) t h1
    · rcases List.mem_cons.mp h1 with h1 | h1
      · rw [h1]; exact ⟨hp, hl⟩
      · exact h.st t h1

theorem keep_resolve {U objs0} {s : St} {d l} (h : Keep U objs0 s) (hr : s.resolve d = some l) : ∀ o k, l = .fld o k → ¬ U o := by
  intro o k hl
  subst hl
  cases d with
  | var i => simp only [St.resolve] at hr; split at hr <;> simp at hr
  | field i j =>
    simp only [St.resolve] at hr
    split at hr
    · rename_i q hq
      simp at hr
      rw [← hr.1]
      exact h.vars i q hq
    · cases hr

theorem keep_step {E U objs0 s s'} (hE : Plain E) (hI : Inv s) (h : Keep U objs0 s) (hs : Step E s s') : Keep U objs0 s' := by
  have hfull : ∀ (o : Nat) (b : Obj), s.objs[o]? = some b → b.ref ≠ 0 → b.left = b.fields.length := fun o b hb => (hI.left o b hb).2.1
  have hub := (inv_step hE hI hs).ub
  cases hs with
  | op q hst hv =>
    unfold St.doOp at hub ⊢
    cases hq : s.start E q with
    | none => simp [hq, St.bad] at hub
    | some s' =>
      simp only [Option.getD_some]
      clear hub
      cases q with
      | create d c =>
        simp only [St.start] at hq
        split at hq
        · cases hq
        · rename_i l hl
          have hlen : ¬ U s.objs.length := fun hu => by have := h.bnd _ hu; omega
          refine keep_attach ?_ ?_ ?_ (keep_resolve h hl) hq
          · intro o b hb h0
            dsimp only at hb
            rw [List.getElem?_append] at hb
            split at hb
            · exact hfull o b hb h0
            · have hm := List.mem_of_getElem? hb
              simp at hm
              subst hm
              simp
          · refine ⟨?_, ?_, h.vars, ?_, h.st⟩
            · intro o ho
              dsimp only
              rw [List.getElem?_append, if_pos (h.bnd o ho)]
              exact h.same o ho
            · intro o ho
              have := h.bnd o ho
              simp only [List.length_append]
              omega
            · intro o b k p hb ho hk hp
              dsimp only at hb
              rw [List.getElem?_append] at hb
              split at hb
              · exact h.mem o b k p hb ho hk hp
              · have hm := List.mem_of_getElem? hb
                simp at hm
                subst hm
                have := List.mem_of_getElem? hp
                simp at this
          · intro o ho
            injection ho with ho
            rw [← ho]; exact hlen
      | copy d t =>
        simp only [St.start] at hq
        split at hq
        · rename_i ld lt hld hlt
          split at hq
          · cases hq
          · rename_i p hp
            have hpc := keep_read hfull h (keep_resolve h hlt) hp
            cases p with
            | none =>
              simp only [St.addRef] at hq
              exact keep_attach hfull h hpc (keep_resolve h hld) hq
            | some o =>
              simp only [St.addRef] at hq
              cases hb : s.objs[o]? with
              | none => simp [hb] at hq
              | some b =>
                simp only [hb] at hq
                by_cases h0 : b.ref = 0
                · simp [h0] at hq
                · simp only [h0, if_false] at hq
                  refine keep_attach ?_ (keep_set (b' := { b with ref := b.ref + 1 }) h hb (hpc o rfl) ?_ s.stack h.st s.destroyed) hpc
                    (keep_resolve h hld) hq
                  · intro q c hc hc0
                    dsimp only at hc
                    rw [get_set (lt_of_get hb)] at hc
                    split at hc
                    · injection hc with hc; subst hc
                      exact hfull o b hb h0
                    · exact hfull q c hc hc0
                  · intro k q hk hq2
                    exact h.mem o b k q hb (hpc o rfl) hk hq2
        · cases hq
      | move d t =>
        simp only [St.start] at hq
        split at hq
        · rename_i ld lt hld hlt
          split at hq
          · cases hq
          · rename_i p hp
            have hpc := keep_read hfull h (keep_resolve h hlt) hp
            split at hq
            · cases hq
            · rename_i s1 hw
              refine keep_attach ?_ (keep_write h (by simp) (keep_resolve h hlt) hw) hpc (keep_resolve h hld) hq
              intro q c hc hc0
              cases lt with
              | var i =>
                simp only [St.write] at hw
                split at hw
                · injection hw with hw; subst hw
                  exact hfull q c hc hc0
                · cases hw
              | fld o k =>
                simp only [St.write] at hw
                cases hb : s.objs[o]? with
                | none => simp [hb] at hw
                | some b =>
                  simp only [hb] at hw
                  split at hw
                  · cases hw
                  rename_i hb0
                  split at hw
                  · injection hw with hw; subst hw
                    dsimp only at hc
                    rw [get_set (lt_of_get hb)] at hc
                    split at hc
                    · injection hc with hc; subst hc
                      simpa using hfull o b hb hb0
                    · exact hfull q c hc hc0
                  · cases hw
        · cases hq
      | clear d =>
        simp only [St.start] at hq
        split at hq
        · cases hq
        · rename_i l hl
          exact keep_attach hfull h (by simp) (keep_resolve h hl) hq
  | micro hst =>
    unfold St.micro at hub ⊢
    split
    · exact h
    rename_i t rest hstk
    rw [hstk] at hub
    have hrest : ∀ t ∈ rest, tclean U t := fun t ht => h.st t (by rw [hstk]; exact List.mem_cons_of_mem _ ht)
    have ht := h.st t (by rw [hstk]; exact List.mem_cons_self ..)
    have hk : Keep U objs0 { s with stack := rest } := ⟨h.same, h.bnd, h.vars, h.mem, hrest⟩
    cases t with
    | op q =>
      rcases hI.shape with h | ⟨ts, l, p, h⟩
      · exact absurd h hst
      · have he := h.eq
        rw [hstk] at he
        cases ts with
        | nil => simp at he
        | cons a ts =>
          simp at he
          have := h.inn a (List.mem_cons_self ..)
          rw [← he.1] at this
          exact this.elim
    | rel o =>
      unfold St.exec at hub ⊢
      dsimp only at hub ⊢
      cases hb : s.objs[o]? with
      | none => simp [hb, St.bad] at hub
      | some b =>
        simp only [hb] at hub ⊢
        by_cases h0 : b.ref = 0
        · rw [if_pos h0] at hub; simp [St.bad] at hub
        · rw [if_neg h0]
          by_cases h1 : b.ref = 1
          · rw [if_pos h1, hE, List.map_nil, List.nil_append]
            refine keep_set (b' := { b with ref := 0 }) h hb ht (fun k q hk hq => h.mem o b k q hb ht hk hq) _ ?_ _
            intro t ht2
            rcases List.mem_cons.mp ht2 with h3 | h3
            · rw [h3]; exact ht
            · exact hrest t h3
          · rw [if_neg h1]
            exact keep_set (b' := { b with ref := b.ref - 1 }) h hb ht (fun k q hk hq => h.mem o b k q hb ht hk hq) _ hrest _
    | fields o =>
      unfold St.exec at hub ⊢
      dsimp only at hub ⊢
      cases hb : s.objs[o]? with
      | none => simp [hb, St.bad] at hub
      | some b =>
        simp only []
        split
        · exact hk
        · rename_i n hn
          refine keep_set (b' := { b with left := n }) h hb ht (fun k q hk hq => h.mem o b k q hb ht (by dsimp only at hk; omega) hq) _ ?_ _
          intro t ht2
          rcases List.mem_append.mp ht2 with h3 | h3
          · refine relOpt_clean (fun q hq => ?_) t h3
            cases hf : b.fields[n]? with
            | none => simp [hf] at hq
            | some z =>
              rw [hf, Option.join_some] at hq
              subst hq
              exact h.mem o b n q hb ht (by omega) hf
          · rcases List.mem_cons.mp h3 with h3 | h3
            · rw [h3]; exact ht
            · exact hrest t h3
    | store l p =>
      unfold St.exec at hub ⊢
      cases hw : St.write { s with stack := rest } l p with
      | none => simp [hw, St.bad] at hub
      | some s' =>
        dsimp only
        rw [hw, Option.getD_some]
        exact keep_write hk ht.1 ht.2 hw

theorem keep_steps {E U objs0 s s'} (hE : Plain E) (hI : Inv s) (h : Keep U objs0 s) (hs : Steps E s s') : Keep U objs0 s' := by
  induction hs with
  | refl => exact h
  | tail h1 h2 ih => exact keep_step hE (inv_steps hE hI h1) ih h2

theorem keep_init {s : St} (hI : Inv s) (hs : s.stack = []) : Keep (fun o => Alive s o ∧ ¬ Reachable s o) s.objs s := by
  refine ⟨fun _ _ => rfl, ?_, ?_, ?_, by rw [hs]; simp⟩
  · rintro o ⟨⟨b, hb, -⟩, -⟩; exact lt_of_get hb
  · intro i o hi hu
    exact hu.2 (.var hi)
  · intro q b k o hb hq hk ho hu
    have hb0 : b.ref ≠ 0 := fun h0 => by have := (quiet_left hI hs q b hb).2.2 h0; omega
    have hr : Reachable s q := by
      refine Classical.byContradiction fun hn => hq ⟨⟨b, hb, hb0⟩, hn⟩
    exact hu.2 (.field hr hb (List.mem_of_getElem? ho))

end Verif.RefGraph
