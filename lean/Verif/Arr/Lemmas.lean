import Verif.Arr.Shift

/-! Ownership invariant of the array heap and what locking a block does to it. -/

namespace Verif.Arr

variable {α : Type}

theorem upd_eq (m : Mem α) (a : Nat) (v : Option (Blk α)) : upd m a v a = v := by simp [upd]
theorem upd_ne (m : Mem α) {a b : Nat} (v : Option (Blk α)) (h : b ≠ a) : upd m a v b = m b := by simp [upd, h]
theorem upd_upd (m : Mem α) (a : Nat) (v w : Option (Blk α)) : upd (upd m a v) a w = upd m a w := by
  funext b; simp only [upd]; split <;> rfl

/-- `c` handles plus one more on block `p` -/
def plus (c : Nat → Nat) (p : Nat) : Nat → Nat := fun a => c a + if a = p then 1 else 0

theorem plus_eq (c : Nat → Nat) (p : Nat) : plus c p p = c p + 1 := by simp [plus]
theorem plus_ne (c : Nat → Nat) {p a : Nat} (h : a ≠ p) : plus c p a = c a := by simp [plus, h]
theorem plus_comm (c : Nat → Nat) (p q : Nat) : plus (plus c p) q = plus (plus c q) p := by
  funext a; simp only [plus]; omega
theorem plus_pos (c : Nat → Nat) (p : Nat) : 0 < plus c p p := by rw [plus_eq]; omega

/-- blocks are live exactly while handles refer to them (`c a` handles refer to block `a`), the reference count is the number of handles, and a locked block has exactly one -/
structure WF (T : Ty α) (m : Mem α) (c : Nat → Nat) : Prop where
  zero : m 0 = some emptyBlk
  blk : ∀ a d, a ≠ 0 → m a = some d → Good T d ∧ 0 < c a ∧ (d.iRef = (c a : Int) ∨ (d.iRef < 0 ∧ c a = 1))
  dead : ∀ a, a ≠ 0 → m a = none → c a = 0

/-- fewer than INT_MAX handles exist -/
def Bd (o : Nat → Nat) : Prop := ∀ a, a ≠ 0 → (o a : Int) + 1 < imax

/-- what the owner of a block can see of it: everything except the number of sharers -/
def obs (m : Mem α) (a : Nat) : Option (Int × Nat × Buf α) := (m a).map fun d => (min d.iRef 1, d.size, d.buf)

/-- a member function of a handle moved the handle to block `p'`, while the other handles (`o a` on block `a`) saw nothing -/
structure Loc (T : Ty α) (o : Nat → Nat) (m m' : Mem α) (p' : Nat) : Prop where
  wf : WF T m' (plus o p')
  frame : ∀ a, 0 < o a → obs m' a = obs m a

theorem Loc.refl {T : Ty α} {o m p} (h : WF T m (plus o p)) : Loc T o m m p := ⟨h, fun _ _ => rfl⟩

theorem Loc.trans {T : Ty α} {o m m1 m2 p1 p2} (a : Loc T o m m1 p1) (b : Loc T o m1 m2 p2) : Loc T o m m2 p2 :=
  ⟨b.wf, fun x hx => (b.frame x hx).trans (a.frame x hx)⟩

/-- exclusive: one reference, or locked -/
def Excl (d : Blk α) : Prop := d.iRef = 1 ∨ d.iRef < 0

theorem good_empty {T : Ty α} : Good T (emptyBlk : Blk α) := ⟨Nat.le_refl _, by simp [emptyBlk], by simp [emptyBlk]⟩

theorem emptyBlk_shared : (emptyBlk : Blk α).isShared := by simp [Blk.isShared, emptyBlk, imax]

theorem WF.live {T : Ty α} {m c a} (h : WF T m c) (hp : 0 < c a) : ∃ d, m a = some d := by
  cases e : m a with
  | some d => exact ⟨d, rfl⟩
  | none =>
    exfalso
    by_cases ha : a = 0
    · subst ha; rw [h.zero] at e; cases e
    · have := h.dead a ha e; omega

theorem WF.zero_eq {T : Ty α} {m c d} (h : WF T m c) (hd : m 0 = some d) : d = emptyBlk := by
  rw [h.zero] at hd; cases hd; rfl

theorem WF.good {T : Ty α} {m c a d} (h : WF T m c) (hd : m a = some d) : Good T d := by
  by_cases ha : a = 0
  · subst ha; rw [h.zero_eq hd]; exact good_empty
  · exact (h.blk a d ha hd).1

theorem wf_plus0 {T : Ty α} {m c} (h : WF T m c) : WF T m (plus c 0) :=
  ⟨h.zero, fun a e ha hm => by rw [plus_ne _ ha]; exact h.blk a e ha hm, fun a ha hm => by rw [plus_ne _ ha]; exact h.dead a ha hm⟩

/-- classification of the block of a handle -/
theorem WF.cases {T : Ty α} {m o p d} (h : WF T m (plus o p)) (hd : m p = some d) (hp : p ≠ 0) :
    (Excl d ∧ o p = 0 ∧ ¬ d.isShared) ∨ (d.isShared ∧ 0 < o p ∧ d.iRef = (o p : Int) + 1) := by
  have := h.blk p d hp hd
  rw [plus_eq] at this
  unfold Excl Blk.isShared
  omega

theorem not_readonly {T : Ty α} {m o p d} (h : WF T m (plus o p)) (hb : Bd o) (hd : m p = some d) (hp : p ≠ 0) : ¬ d.isReadOnly := by
  have := h.blk p d hp hd
  have hb := hb p hp
  rw [plus_eq] at this
  unfold Blk.isReadOnly imax at *
  omega

theorem excl_of {T : Ty α} {m o p d} (h : WF T m (plus o p)) (hd : m p = some d) : ¬ d.isShared → p ≠ 0 ∧ Excl d ∧ o p = 0 := by
  intro hs
  by_cases hp : p = 0
  · subst hp; rw [h.zero_eq hd] at hs; exact absurd emptyBlk_shared hs
  · rcases h.cases hd hp with e | e
    · exact ⟨hp, e.1, e.2.1⟩
    · exact absurd e.1 hs

/-- replace the contents of an exclusively owned block -/
theorem loc_set {T : Ty α} {m o p d'} (h : WF T m (plus o p)) (hp : p ≠ 0) (ho : o p = 0) (g : Good T d') (he : Excl d') : Loc T o m (upd m p (some d')) p := by
  refine ⟨⟨?_, ?_, ?_⟩, fun a ha => ?_⟩
  · rw [upd_ne _ _ (Ne.symm hp)]; exact h.zero
  · intro a e ha hm
    by_cases hap : a = p
    · subst hap; rw [upd_eq] at hm; cases hm
      rw [plus_eq]; unfold Excl at he; refine ⟨g, ?_⟩; omega
    · rw [upd_ne _ _ hap] at hm; exact h.blk a e ha hm
  · intro a ha hm
    by_cases hap : a = p
    · subst hap; rw [upd_eq] at hm; cases hm
    · rw [upd_ne _ _ hap] at hm; exact h.dead a ha hm
  · have : a ≠ p := by intro e; subst e; omega
    unfold obs; rw [upd_ne _ _ this]

/-- a new block -/
theorem wf_new {T : Ty α} {m c q d'} (h : WF T m c) (hq : q ≠ 0) (hm : m q = none) (g : Good T d') (he : Excl d') : WF T (upd m q (some d')) (plus c q) := by
  have h0 := h.dead q hq hm
  refine ⟨?_, ?_, ?_⟩
  · rw [upd_ne _ _ (Ne.symm hq)]; exact h.zero
  · intro a e ha hm
    by_cases hap : a = q
    · subst hap; rw [upd_eq] at hm; cases hm
      rw [plus_eq]; unfold Excl at he; refine ⟨g, ?_⟩; omega
    · rw [upd_ne _ _ hap] at hm; rw [plus_ne _ hap]; exact h.blk a e ha hm
  · intro a ha hm
    by_cases hap : a = q
    · subst hap; rw [upd_eq] at hm; cases hm
    · rw [upd_ne _ _ hap] at hm; rw [plus_ne _ hap]; exact h.dead a ha hm

/-- dropping one reference -/
theorem release_ok {T : Ty α} {m o p} (h : WF T m (plus o p)) (hb : Bd o) :
    ∃ m', release T m p = some m' ∧ WF T m' o ∧ (∀ a, 0 < o a → obs m' a = obs m a) ∧ (∀ a, a ≠ p → m' a = m a) ∧
      (∀ d, p ≠ 0 → m p = some d → ¬ d.isShared → m' p = none) ∧ (p = 0 → m' = m) := by
  obtain ⟨d, hd⟩ := h.live (plus_pos o p)
  by_cases hp : p = 0
  · subst hp
    have he := h.zero_eq hd
    subst he
    refine ⟨m, ?_, ⟨h.zero, ?_, ?_⟩, fun _ _ => rfl, fun _ _ => rfl, fun d h0 => absurd rfl h0, fun _ => rfl⟩
    · unfold release; rw [hd]; simp [Blk.isReadOnly, emptyBlk]
    · intro a e ha hm; have := h.blk a e ha hm; rwa [plus_ne _ ha] at this
    · intro a ha hm; have := h.dead a ha hm; rwa [plus_ne _ ha] at this
  · have hr := not_readonly h hb hd hp
    have hg := (h.blk p d hp hd).1
    rcases h.cases hd hp with ⟨he, ho, hs⟩ | ⟨hs, ho, hi⟩
    · have e : release T m p = some (upd m p none) := by
        unfold release; rw [hd]; dsimp only; rw [if_neg hr]
        unfold Excl at he
        rw [if_neg (by omega), desN_eq (by have := hg.le; omega) (fun _ j x _ h2 hx => hg.live j x (by omega) hx)]
      refine ⟨_, e, ⟨?_, ?_, ?_⟩, ?_, fun a ha => upd_ne _ _ ha, fun _ _ _ _ => upd_eq _ _ _, fun h0 => absurd h0 hp⟩
      · rw [upd_ne _ _ (Ne.symm hp)]; exact h.zero
      · intro a e ha hm
        by_cases hap : a = p
        · subst hap; rw [upd_eq] at hm; cases hm
        · rw [upd_ne _ _ hap] at hm; have := h.blk a e ha hm; rwa [plus_ne _ hap] at this
      · intro a ha hm
        by_cases hap : a = p
        · subst hap; exact ho
        · rw [upd_ne _ _ hap] at hm; have := h.dead a ha hm; rwa [plus_ne _ hap] at this
      · intro a ha
        have : a ≠ p := by intro e; subst e; omega
        unfold obs; rw [upd_ne _ _ this]
    · have e : release T m p = some (upd m p (some { d with iRef := d.iRef - 1 })) := by
        unfold release; rw [hd]; dsimp only; rw [if_neg hr]
        unfold Blk.isShared at hs
        rw [if_pos (by omega)]
      refine ⟨_, e, ⟨?_, ?_, ?_⟩, ?_, fun a ha => upd_ne _ _ ha, ?_, fun h0 => absurd h0 hp⟩
      · rw [upd_ne _ _ (Ne.symm hp)]; exact h.zero
      · intro a e ha hm
        by_cases hap : a = p
        · subst hap; rw [upd_eq] at hm; cases hm
          refine ⟨⟨hg.le, hg.live, hg.rest⟩, ?_⟩
          dsimp only; omega
        · rw [upd_ne _ _ hap] at hm; have := h.blk a e ha hm; rwa [plus_ne _ hap] at this
      · intro a ha hm
        by_cases hap : a = p
        · subst hap; rw [upd_eq] at hm; cases hm
        · rw [upd_ne _ _ hap] at hm; have := h.dead a ha hm; rwa [plus_ne _ hap] at this
      · intro a ha
        by_cases hap : a = p
        · subst hap; unfold obs; rw [upd_eq, hd]
          unfold Blk.isShared at hs
          simp only [Option.map_some]
          have e1 : min (d.iRef - 1) 1 = 1 := by omega
          have e2 : min d.iRef 1 = 1 := by omega
          rw [e1, e2]
        · unfold obs; rw [upd_ne _ _ hap]
      · intro d' _ hd' hs'; rw [hd] at hd'; cases hd'; exact absurd hs hs'

/-- one more reference to a block that already has one -/
theorem addRef_ok {T : Ty α} {m c a d} (h : WF T m c) (hb : Bd c) (hc : 0 < c a) (hd : m a = some d) (hl : ¬ d.isLocked) :
    ∃ m', addRef m a = some (some m') ∧ WF T m' (plus c a) ∧ (∀ x, obs m' x = obs m x) ∧ (∀ x, x ≠ a → m' x = m x) := by
  by_cases ha : a = 0
  · subst ha
    have he := h.zero_eq hd
    subst he
    refine ⟨m, ?_, wf_plus0 h, fun _ => rfl, fun _ _ => rfl⟩
    unfold addRef; rw [hd]; simp [Blk.isReadOnly, emptyBlk]
  · have hk := h.blk a d ha hd
    have hb := hb a ha
    unfold Blk.isLocked at hl
    have hi : d.iRef = (c a : Int) := by omega
    have hr : ¬ d.isReadOnly := by unfold Blk.isReadOnly; omega
    refine ⟨upd m a (some { d with iRef := d.iRef + 1 }), ?_, ⟨?_, ?_, ?_⟩, ?_, fun x hx => upd_ne _ _ hx⟩
    · unfold addRef; rw [hd]; dsimp only; rw [if_neg hr, if_neg (by omega)]
    · rw [upd_ne _ _ (Ne.symm ha)]; exact h.zero
    · intro x e hx hm
      by_cases hap : x = a
      · subst hap; rw [upd_eq] at hm; cases hm; rw [plus_eq]
        refine ⟨⟨hk.1.le, hk.1.live, hk.1.rest⟩, ?_⟩
        dsimp only; omega
      · rw [upd_ne _ _ hap] at hm; rw [plus_ne _ hap]; exact h.blk x e hx hm
    · intro x hx hm
      by_cases hap : x = a
      · subst hap; rw [upd_eq] at hm; cases hm
      · rw [upd_ne _ _ hap] at hm; rw [plus_ne _ hap]; exact h.dead x hx hm
    · intro x
      by_cases hap : x = a
      · subst hap; unfold obs; rw [upd_eq, hd]
        simp only [Option.map_some]
        have e1 : min (d.iRef + 1) 1 = 1 := by omega
        have e2 : min d.iRef 1 = 1 := by omega
        rw [e1, e2]
      · unfold obs; rw [upd_ne _ _ hap]

theorem round16_ge (n : Nat) : n ≤ round16 n := by unfold round16; omega

theorem round16_zero {n : Nat} : round16 n = 0 ↔ n = 0 := by unfold round16; omega

/-- the allocator answers with memory nobody uses; reallocation of the unshared block `p` of a trivially copyable type may also answer `p` -/
def Fresh (T : Ty α) (m : Mem α) (p : Nat) (al : Al) : Prop :=
  ∀ q, al = some q → q ≠ 0 ∧ (m q = none ∨ (q = p ∧ ∃ d, m p = some d ∧ ¬ d.isShared ∧ T.triv = true))

/-- the number of references after `Lock` -/
def lockRef (i : Int) : Int := if i < 0 then i - 1 else -1

theorem lockAt_excl {m : Mem α} {p : Nat} {d : Blk α} (hp : p ≠ 0) (hd : m p = some d) (he : Excl d) :
    lockAt m p = .ret .ok (upd m p (some { d with iRef := lockRef d.iRef })) p := by
  unfold lockAt lockBlk; rw [hd]; dsimp only
  unfold Excl at he
  have hr : ¬ d.isReadOnly := by unfold Blk.isReadOnly imax; omega
  rw [if_neg hr, if_neg (by omega)]; dsimp only
  rw [if_neg hp]
  congr 4
  unfold lockRef
  by_cases h : d.iRef = 1
  · rw [if_pos h, if_neg (by omega)]
  · rw [if_neg h, if_pos (by omega)]

theorem lockAt_zero {m : Mem α} (h : m 0 = some emptyBlk) : lockAt m 0 = .ret .ok m 0 := by
  unfold lockAt lockBlk; rw [h]; simp [Blk.isReadOnly, emptyBlk]

theorem lockRef_neg (i : Int) : lockRef i < 0 := by unfold lockRef; split <;> omega

/-- the handle's block, now locked and exclusively its own, is `d1` at `q`; it has the elements `cs` -/
structure Acq (T : Ty α) (o : Nat → Nat) (m : Mem α) (p : Nat) (d : Blk α) (cs : List (Slot α)) (r : Nat) (m' : Mem α) (q : Nat) (d1 : Blk α) : Prop where
  loc : Loc T o m m' q
  nz : q ≠ 0
  oth : o q = 0
  get : m' q = some d1
  ref : d1.iRef = lockRef d.iRef
  good : Good T d1
  content : d1.content = cs
  room : r ≤ d1.buf.length
  same : ¬ d.isShared → r ≤ d.buf.length → q = p ∧ d1.buf = d.buf

/-- a fresh block replaces the handle's shared block -/
theorem acq_fresh {T : Ty α} {o m p d q b} {s : Nat} (h : WF T m (plus o p)) (hb : Bd o) (hd : m p = some d) (hs : d.isShared) (q0 : q ≠ 0) (qn : m q = none)
    (g : Good T ⟨1, s, b⟩) :
    ∃ m2, release T (upd m q (some ⟨1, s, b⟩)) p = some m2 ∧
      ∃ m' d1, lockAt m2 q = .ret .ok m' q ∧ Acq T o m p d (b.take s) b.length m' q d1 := by
  have hqp : p ≠ q := by intro e; subst e; rw [hd] at qn; cases qn
  have w1 : WF T (upd m q (some ⟨1, s, b⟩)) (plus (plus o p) q) := wf_new h q0 qn g (Or.inl rfl)
  rw [plus_comm] at w1
  have oq : o q = 0 := by have := h.dead q q0 qn; rw [plus_ne _ (Ne.symm hqp)] at this; exact this
  have hb1 : Bd (plus o q) := by
    intro a ha
    by_cases hq : a = q
    · subst hq; rw [plus_eq, oq]; simp [imax]
    · rw [plus_ne _ hq]; exact hb a ha
  obtain ⟨m2, e1, w, fr, ne, _⟩ := release_ok w1 hb1
  refine ⟨m2, e1, ?_⟩
  have g2 : m2 q = some ⟨1, s, b⟩ := by rw [ne q (Ne.symm hqp), upd_eq]
  have gl : Good T ⟨lockRef 1, s, b⟩ := ⟨g.le, g.live, g.rest⟩
  have L := loc_set (d' := ⟨lockRef 1, s, b⟩) w q0 oq gl (Or.inr (show lockRef 1 < 0 from lockRef_neg 1))
  refine ⟨_, _, lockAt_excl q0 g2 (Or.inl rfl), ⟨L.wf, ?_⟩, q0, oq, upd_eq _ _ _, ?_, gl, rfl, Nat.le_refl _, fun hn => absurd hs hn⟩
  · intro a ha
    rw [L.frame a ha, fr a (by simp only [plus]; omega)]
    have : a ≠ q := by intro e; subst e; omega
    unfold obs; rw [upd_ne _ _ this]
  · unfold Blk.isShared at hs
    unfold lockRef; dsimp only; rw [if_neg (by omega), if_neg (by omega)]

/-- growing the handle's exclusive block -/
theorem acq_grow {T : Ty α} {o m p d q n} (h : WF T m (plus o p)) (hb : Bd o) (hd : m p = some d) (hs : ¬ d.isShared) (hl : ¬ d.isLocked) (hf : Fresh T m p (some q)) (hn : d.buf.length < n) :
    ∃ m', lockAt (upd (upd m p none) q (some { d with buf := d.buf ++ List.replicate (round16 n - d.buf.length) .raw })) q = .ret .ok m' q ∧
      ∃ d1, Acq T o m p d d.content n m' q d1 := by
  obtain ⟨hp, he, ho⟩ := excl_of h hd hs
  have hq := hf q rfl
  have hg := (h.blk p d hp hd).1
  have i1 : d.iRef = 1 := by unfold Excl at he; unfold Blk.isLocked at hl; omega
  have hr16 := round16_ge n
  generalize hD : ({ d with buf := d.buf ++ List.replicate (round16 n - d.buf.length) .raw } : Blk α) = D
  have D1 : D.iRef = 1 := by rw [← hD]; exact i1
  have D2 : n ≤ D.buf.length := by rw [← hD]; simp only [List.length_append, List.length_replicate]; omega
  have D3 : D.content = d.content := by
    rw [← hD]; unfold Blk.content; dsimp only; rw [List.take_append_of_le_length hg.le]
  have D4 : Good T D := by
    rw [← hD]
    refine ⟨?_, ?_, ?_⟩
    · have := hg.le; simp only [List.length_append]; omega
    · intro j x hj hx; dsimp only at hj hx
      rw [List.getElem?_append_left (by have := hg.le; omega)] at hx; exact hg.live j x hj hx
    · intro t j h1 h2; dsimp only at h1 h2 ⊢
      by_cases hj : j < d.buf.length
      · rw [List.getElem?_append_left hj]; exact hg.rest t j h1 hj
      · rw [List.getElem?_append_right (by omega), List.getElem?_replicate, if_pos (by simp only [List.length_append, List.length_replicate] at h2; omega)]
  clear hD
  have oq : o q = 0 := by
    rcases hq.2 with hn | ⟨e, _⟩
    · have := h.dead q hq.1 hn
      by_cases hqp : q = p
      · subst hqp; exact ho
      · rw [plus_ne _ hqp] at this; exact this
    · rw [e]; exact ho
  obtain ⟨m1, em1, w1, fr1, ne1, dd, _⟩ := release_ok h hb
  have m1e : m1 = upd m p none := by
    funext a
    by_cases hap : a = p
    · subst hap; rw [upd_eq]; exact dd d hp hd hs
    · rw [ne1 a hap, upd_ne _ _ hap]
  rw [m1e] at w1 fr1
  have mq : (upd m p none) q = none := by
    by_cases hqp : q = p
    · rw [hqp, upd_eq]
    · rw [upd_ne _ _ hqp]
      rcases hq.2 with hn | ⟨e, _⟩
      · exact hn
      · exact absurd e hqp
  have w2 : WF T (upd (upd m p none) q (some D)) (plus o q) := wf_new w1 hq.1 mq D4 (Or.inl D1)
  have gl : Good T { D with iRef := lockRef D.iRef } := ⟨D4.le, D4.live, D4.rest⟩
  have L := loc_set (d' := { D with iRef := lockRef D.iRef }) w2 hq.1 oq gl (Or.inr (lockRef_neg _))
  refine ⟨_, lockAt_excl hq.1 (upd_eq _ _ _) (Or.inl D1), _, ⟨L.wf, ?_⟩, hq.1, oq, upd_eq _ _ _, ?_, gl, D3, D2, fun _ hc => by omega⟩
  · intro a ha
    have : a ≠ q := by intro e; subst e; omega
    rw [L.frame a ha]
    refine Eq.trans ?_ (fr1 a ha)
    unfold obs; rw [upd_ne _ _ this]
  · dsimp only; rw [D1, i1]

/-- locking the handle's exclusive block as it is -/
theorem acq_same {T : Ty α} {o m p d n} (h : WF T m (plus o p)) (hd : m p = some d) (hs : ¬ d.isShared) (hn : n ≤ d.buf.length) :
    ∃ m' d1, lockAt m p = .ret .ok m' p ∧ Acq T o m p d d.content n m' p d1 := by
  obtain ⟨hp, he, ho⟩ := excl_of h hd hs
  have hg := (h.blk p d hp hd).1
  have gl : Good T { d with iRef := lockRef d.iRef } := ⟨hg.le, hg.live, hg.rest⟩
  refine ⟨_, _, lockAt_excl hp hd he, loc_set h hp ho gl (Or.inr (lockRef_neg _)), hp, ho, upd_eq _ _ _, rfl, gl, rfl, hn, fun _ _ => ⟨rfl, rfl⟩⟩

theorem fresh_none {T : Ty α} {m : Mem α} {p q : Nat} {d : Blk α} (hf : Fresh T m p (some q)) (hd : m p = some d) (hs : d.isShared) : q ≠ 0 ∧ m q = none := by
  obtain ⟨h0, h1 | ⟨_, d', hd', hn, _⟩⟩ := hf q rfl
  · exact ⟨h0, h1⟩
  · rw [hd] at hd'; cases hd'; exact absurd hs hn

/-- `LockInternalData` / `LockInternalDataIncrement`, all cases -/
theorem acquire_ok {T : Ty α} {o m p d need grow al} (h : WF T m (plus o p)) (hb : Bd o) (hd : m p = some d) (hf : Fresh T m p al) :
    (acquire T m p d need grow al = .ret .oom m p ∧ al = none) ∨
    (acquire T m p d need grow al = .thr m p ∧ d.isLocked ∧ d.buf.length < grow) ∨
    (need = 0 ∧ d.size = 0 ∧ d.isShared ∧ ∃ m', acquire T m p d need grow al = .ret .ok m' 0 ∧ Loc T o m m' 0) ∨
    (∃ m' q d1, acquire T m p d need grow al = .ret .ok m' q ∧ Acq T o m p d d.content (if d.isShared then need else grow) m' q d1) := by
  have hg := h.good hd
  unfold acquire
  by_cases hs : d.isShared
  · rw [if_pos hs, if_pos hs]
    have hC : ∃ C, C = (if need < d.size then d.size else need) ∧ need ≤ C ∧ d.size ≤ C ∧ (C = 0 → need = 0 ∧ d.size = 0) := by
      refine ⟨_, rfl, ?_⟩; split <;> omega
    obtain ⟨C, hC, c1, c2, c3⟩ := hC
    by_cases hC0 : C = 0
    · -- an empty shared block: the clone is the static block
      obtain ⟨n0, s0⟩ := c3 hC0
      have e : clone T m d need al = some (some (m, 0)) := by
        unfold clone; rw [← hC]
        have ea : alloc m C al = some (m, 0) := by unfold alloc; rw [if_pos (round16_zero.2 hC0)]
        rw [ea]; dsimp only; rw [h.zero]; dsimp only
        rw [s0, List.take_zero]; simp [consL, emptyBlk]
      rw [e]; dsimp only
      obtain ⟨m', e1, w, fr, ne, _⟩ := release_ok h hb
      rw [e1]; dsimp only
      exact .inr (.inr (.inl ⟨n0, s0, hs, m', lockAt_zero w.zero, wf_plus0 w, fr⟩))
    · cases al with
      | none =>
        left
        have e : clone T m d need none = some none := by
          unfold clone; rw [← hC]; unfold alloc; rw [if_neg (fun hz => hC0 (round16_zero.1 hz))]
        rw [e]; exact ⟨rfl, rfl⟩
      | some q =>
        obtain ⟨q0, qn⟩ := fresh_none hf hd hs
        have hr16 := round16_ge C
        have hcl := content_length hg
        have hcl' : (d.buf.take d.size).length = d.size := hcl
        have ec : consL T (List.replicate (round16 C) .raw) 0 (d.buf.take d.size) = some (splice (List.replicate (round16 C) .raw) 0 (d.buf.take d.size)) := by
          refine consL_eq (by rw [List.length_replicate]; omega) fun _ => ⟨fun j _ h2 => ?_, fun v hv => content_alive hg v hv⟩
          rw [List.getElem?_replicate, if_pos (by omega)]
        have es : splice (List.replicate (round16 C) .raw) 0 (d.buf.take d.size) = d.content ++ List.replicate (round16 C - d.size) .raw := by
          unfold splice Blk.content; rw [hcl']; simp
        have e : clone T m d need (some q) = some (some (upd m q (some ⟨1, d.size, d.content ++ List.replicate (round16 C - d.size) .raw⟩), q)) := by
          unfold clone; rw [← hC]; unfold alloc; rw [if_neg (fun hz => hC0 (round16_zero.1 hz))]; dsimp only
          rw [upd_eq]; dsimp only
          rw [ec, es]; dsimp only
          by_cases hz : 0 = d.size
          · rw [if_pos hz]
            congr 3
            have : d.content = [] := by rw [← List.length_eq_zero_iff]; omega
            rw [this, ← hz]; simp
          · rw [if_neg hz, if_neg q0, upd_upd]
        rw [e]; dsimp only
        have gb : Good T ⟨1, d.size, d.content ++ List.replicate (round16 C - d.size) .raw⟩ := by
          refine (good_mk d.content hcl (by simp only [List.length_append, List.length_replicate]; omega) (fun j hj => ?_) (content_alive hg) (fun _ j h1 h2 => ?_)).1
          · rw [List.getElem?_append_left (by omega)]
          · rw [List.getElem?_append_right (by omega), List.getElem?_replicate, if_pos (by simp only [List.length_append, List.length_replicate] at h2; omega)]
        obtain ⟨m2, e1, m', d1, e2, A⟩ := acq_fresh h hb hd hs q0 qn gb
        rw [e1]; dsimp only
        refine .inr (.inr (.inr ⟨m', q, d1, e2, A.loc, A.nz, A.oth, A.get, A.ref, A.good, ?_, ?_, fun hn => absurd hs hn⟩))
        · rw [A.content, ← hcl, List.take_left]
        · have := A.room; simp only [List.length_append, List.length_replicate] at this; omega
  · rw [if_neg hs, if_neg hs]
    by_cases hgr : d.buf.length < grow
    · rw [if_pos hgr]
      unfold realloc; rw [if_neg (by omega)]
      by_cases hl : d.isLocked
      · rw [if_pos hl]; exact .inr (.inl ⟨rfl, hl, hgr⟩)
      · rw [if_neg hl]
        cases al with
        | none => exact .inl ⟨rfl, rfl⟩
        | some q =>
          dsimp only
          obtain ⟨m', e, d1, A⟩ := acq_grow h hb hd hs hl hf hgr
          exact .inr (.inr (.inr ⟨m', q, d1, e, A⟩))
    · rw [if_neg hgr]
      obtain ⟨m', d1, e, A⟩ := acq_same (n := grow) h hd hs (by omega)
      exact .inr (.inr (.inr ⟨m', p, d1, e, A⟩))

end Verif.Arr
