import Verif.StrHeap.Model

/-! Ownership invariant of the string heap and what each member function does to it. -/

namespace Verif.StrHeap

theorem upd_eq (m : Mem) (a : Nat) (v : Option SD) : upd m a v a = v := by simp [upd]
theorem upd_ne (m : Mem) {a b : Nat} (v : Option SD) (h : b ≠ a) : upd m a v b = m b := by simp [upd, h]
theorem upd_upd (m : Mem) (a : Nat) (v w : Option SD) : upd (upd m a v) a w = upd m a w := by
  funext b; simp only [upd]; split <;> rfl

/-- `c` handles plus one more on block `p` -/
def plus (c : Nat → Nat) (p : Nat) : Nat → Nat := fun a => c a + if a = p then 1 else 0

theorem plus_eq (c : Nat → Nat) (p : Nat) : plus c p p = c p + 1 := by simp [plus]
theorem plus_ne (c : Nat → Nat) {p a : Nat} (h : a ≠ p) : plus c p a = c a := by simp [plus, h]
theorem plus_comm (c : Nat → Nat) (p q : Nat) : plus (plus c p) q = plus (plus c q) p := by
  funext a; simp only [plus]; omega

/-- blocks are live exactly while handles refer to them (`c a` handles refer to block `a`), the reference
count is the number of handles, and a locked block has exactly one -/
structure WF (cls : Nat) (m : Mem) (c : Nat → Nat) : Prop where
  zero : m 0 = some (emptySD cls)
  blk : ∀ a d, a ≠ 0 → m a = some d →
    (d.size ≤ d.cap ∧ 0 < d.cap) ∧ 0 < c a ∧ (d.iRef = (c a : Int) ∨ (d.iRef < 0 ∧ c a = 1))
  dead : ∀ a, a ≠ 0 → m a = none → c a = 0

/-- fewer than INT_MAX handles exist -/
def Bd (o : Nat → Nat) : Prop := ∀ a, a ≠ 0 → (o a : Int) + 1 < imax

/-- what the owner of a block can see of it: everything except the number of sharers (a positive `iRef`
shows as 1, a negative one is the number of locks) -/
def obs (m : Mem) (a : Nat) : Option (Int × Nat × Nat × Nat × (Nat → Nat)) :=
  (m a).map fun d => (min d.iRef 1, d.cap, d.size, d.enc, d.buf)

/-- a member function of a handle moved the handle from block `p` to block `p'`, while the other handles
(`o a` on block `a`) saw nothing -/
structure Loc (cls : Nat) (o : Nat → Nat) (m m' : Mem) (p' : Nat) : Prop where
  wf : WF cls m' (plus o p')
  frame : ∀ a, 0 < o a → obs m' a = obs m a

theorem Loc.refl {cls o m p} (h : WF cls m (plus o p)) : Loc cls o m m p := ⟨h, fun _ _ => rfl⟩

theorem Loc.trans {cls o m m1 m2 p1 p2} (a : Loc cls o m m1 p1) (b : Loc cls o m1 m2 p2) : Loc cls o m m2 p2 :=
  ⟨b.wf, fun x hx => (b.frame x hx).trans (a.frame x hx)⟩

/-- exclusive: one reference, or locked -/
def Excl (d : SD) : Prop := d.iRef = 1 ∨ d.iRef < 0

theorem WF.live {cls m c a} (h : WF cls m c) (hp : 0 < c a) : ∃ d, m a = some d := by
  cases e : m a with
  | some d => exact ⟨d, rfl⟩
  | none =>
    exfalso
    by_cases ha : a = 0
    · subst ha; rw [h.zero] at e; cases e
    · have := h.dead a ha e; omega

theorem WF.size_le {cls m c a d} (h : WF cls m c) (hd : m a = some d) : d.size ≤ d.cap := by
  by_cases ha : a = 0
  · subst ha; rw [h.zero] at hd; cases hd; exact Nat.le_refl _
  · exact (h.blk a d ha hd).1.1

theorem WF.zero_eq {cls m c d} (h : WF cls m c) (hd : m 0 = some d) : d = emptySD cls := by
  rw [h.zero] at hd; cases hd; rfl

/-- classification of the block of a handle -/
theorem WF.cases {cls m o p d} (h : WF cls m (plus o p)) (hd : m p = some d) (hp : p ≠ 0) :
    (Excl d ∧ o p = 0 ∧ ¬ d.isShared) ∨ (d.isShared ∧ 0 < o p ∧ d.iRef = (o p : Int) + 1) := by
  have := h.blk p d hp hd
  rw [plus_eq] at this
  unfold Excl SD.isShared
  omega

theorem not_readonly {cls m o p d} (h : WF cls m (plus o p)) (hb : Bd o) (hd : m p = some d) (hp : p ≠ 0) :
    ¬ d.isReadOnly := by
  have := h.blk p d hp hd
  have hb := hb p hp
  rw [plus_eq] at this
  unfold SD.isReadOnly imax at *
  omega

theorem shared_iff {cls m o p d} (h : WF cls m (plus o p)) (hd : m p = some d) :
    ¬ d.isShared → p ≠ 0 ∧ Excl d ∧ o p = 0 := by
  intro hs
  by_cases hp : p = 0
  · subst hp; have := h.zero_eq hd; subst this; exact absurd (by simp [SD.isShared, emptySD, imax]) hs
  · rcases h.cases hd hp with e | e
    · exact ⟨hp, e.1, e.2.1⟩
    · exact absurd e.1 hs

/-- replace the contents of an exclusively owned block -/
theorem wf_set {cls m o p d d'} (h : WF cls m (plus o p)) (hd : m p = some d) (hp : p ≠ 0)
    (ho : o p = 0) (hs : d'.size ≤ d'.cap ∧ 0 < d'.cap) (he : Excl d') : WF cls (upd m p (some d')) (plus o p) := by
  refine ⟨?_, ?_, ?_⟩
  · rw [upd_ne _ _ (Ne.symm hp)]; exact h.zero
  · intro a e ha hm
    by_cases hap : a = p
    · subst hap; rw [upd_eq] at hm; cases hm
      rw [plus_eq]; unfold Excl at he; refine ⟨hs, ?_⟩; omega
    · rw [upd_ne _ _ hap] at hm; exact h.blk a e ha hm
  · intro a ha hm
    by_cases hap : a = p
    · subst hap; rw [upd_eq] at hm; cases hm
    · rw [upd_ne _ _ hap] at hm; exact h.dead a ha hm

theorem loc_set {cls m o p d d'} (h : WF cls m (plus o p)) (hd : m p = some d) (hp : p ≠ 0)
    (ho : o p = 0) (hs : d'.size ≤ d'.cap ∧ 0 < d'.cap) (he : Excl d') : Loc cls o m (upd m p (some d')) p :=
  ⟨wf_set h hd hp ho hs he, fun a ha => by
    have : a ≠ p := by intro e; subst e; omega
    unfold obs; rw [upd_ne _ _ this]⟩

/-- a new block -/
theorem wf_new {cls m c q d'} (h : WF cls m c) (hq : q ≠ 0) (hm : m q = none) (hs : d'.size ≤ d'.cap ∧ 0 < d'.cap)
    (he : Excl d') : WF cls (upd m q (some d')) (plus c q) := by
  have h0 := h.dead q hq hm
  refine ⟨?_, ?_, ?_⟩
  · rw [upd_ne _ _ (Ne.symm hq)]; exact h.zero
  · intro a e ha hm
    by_cases hap : a = q
    · subst hap; rw [upd_eq] at hm; cases hm
      rw [plus_eq]; unfold Excl at he; refine ⟨hs, ?_⟩; omega
    · rw [upd_ne _ _ hap] at hm; rw [plus_ne _ hap]; exact h.blk a e ha hm
  · intro a ha hm
    by_cases hap : a = q
    · subst hap; rw [upd_eq] at hm; cases hm
    · rw [upd_ne _ _ hap] at hm; rw [plus_ne _ hap]; exact h.dead a ha hm

theorem plus_pos (c : Nat → Nat) (p : Nat) : 0 < plus c p p := by rw [plus_eq]; omega

/-- dropping one reference -/
theorem release_ok {cls m o p} (h : WF cls m (plus o p)) (hb : Bd o) :
    ∃ m', release m p = some m' ∧ WF cls m' o ∧ (∀ a, 0 < o a → obs m' a = obs m a) ∧
      (∀ a, a ≠ p → m' a = m a) ∧ (∀ d, p ≠ 0 → m p = some d → ¬ d.isShared → m' p = none) ∧
      (∀ d, p ≠ 0 → m p = some d → d.isShared → m' p = some { d with iRef := d.iRef - 1 }) ∧
      (p = 0 → m' = m) := by
  obtain ⟨d, hd⟩ := h.live (plus_pos o p)
  by_cases hp : p = 0
  · subst hp
    have he := h.zero_eq hd
    subst he
    refine ⟨m, ?_, ⟨h.zero, ?_, ?_⟩, fun _ _ => rfl, fun _ _ => rfl, fun d h0 => absurd rfl h0,
      fun d h0 => absurd rfl h0, fun _ => rfl⟩
    · unfold release; rw [hd]; simp [SD.isReadOnly, emptySD]
    · intro a e ha hm; have := h.blk a e ha hm; rwa [plus_ne _ ha] at this
    · intro a ha hm; have := h.dead a ha hm; rwa [plus_ne _ ha] at this
  · have hr := not_readonly h hb hd hp
    rcases h.cases hd hp with ⟨he, ho, hs⟩ | ⟨hs, ho, hi⟩
    · have e : release m p = some (upd m p none) := by
        unfold release; rw [hd]; dsimp only; rw [if_neg hr]
        unfold Excl at he
        split
        · rfl
        · rw [if_pos (by omega)]
      refine ⟨_, e, ⟨?_, ?_, ?_⟩, ?_, fun a ha => upd_ne _ _ ha, fun _ _ _ _ => upd_eq _ _ _, ?_, fun h0 => absurd h0 hp⟩
      · rw [upd_ne _ _ (Ne.symm hp)]; exact h.zero
      · intro a e ha hm
        by_cases hap : a = p
        · subst hap; rw [upd_eq] at hm; cases hm
        · rw [upd_ne _ _ hap] at hm; have := h.blk a e ha hm; rwa [plus_ne _ hap] at this
      · intro a ha hm
        by_cases hap : a = p
        · subst hap; exact ho
        · rw [upd_ne _ _ hap] at hm; have := h.dead a ha hm; rwa [plus_ne _ hap] at this
      · intro a ha
        have : a ≠ p := by intro e; subst e; omega
        unfold obs; rw [upd_ne _ _ this]
      · intro d' _ hd' hs'; rw [hd] at hd'; cases hd'; exact absurd hs' hs
    · have e : release m p = some (upd m p (some { d with iRef := d.iRef - 1 })) := by
        unfold release; rw [hd]; dsimp only; rw [if_neg hr]
        unfold SD.isShared at hs
        rw [if_neg (by omega), if_neg (by omega)]
      refine ⟨_, e, ⟨?_, ?_, ?_⟩, ?_, fun a ha => upd_ne _ _ ha, ?_, ?_, fun h0 => absurd h0 hp⟩
      · rw [upd_ne _ _ (Ne.symm hp)]; exact h.zero
      · intro a e ha hm
        by_cases hap : a = p
        · subst hap; rw [upd_eq] at hm; cases hm
          have := h.blk a d ha hd
          dsimp only; omega
        · rw [upd_ne _ _ hap] at hm; have := h.blk a e ha hm; rwa [plus_ne _ hap] at this
      · intro a ha hm
        by_cases hap : a = p
        · subst hap; rw [upd_eq] at hm; cases hm
        · rw [upd_ne _ _ hap] at hm; have := h.dead a ha hm; rwa [plus_ne _ hap] at this
      · intro a ha
        by_cases hap : a = p
        · subst hap; unfold obs; rw [upd_eq, hd]
          unfold SD.isShared at hs
          simp only [Option.map_some]
          have e1 : min (d.iRef - 1) 1 = 1 := by omega
          have e2 : min d.iRef 1 = 1 := by omega
          rw [e1, e2]
        · unfold obs; rw [upd_ne _ _ hap]
      · intro d' _ hd' hs'; rw [hd] at hd'; cases hd'; exact absurd hs hs'
      · intro d' _ hd' hs'; rw [hd] at hd'; cases hd'; exact upd_eq _ _ _

/-- one more reference to a block that already has one -/
theorem addRef_ok {cls m c a d} (h : WF cls m c) (hb : Bd c) (hc : 0 < c a) (hd : m a = some d)
    (hl : ¬ d.isLocked) :
    ∃ m', addRef m a = some (some m') ∧ WF cls m' (plus c a) ∧ (∀ x, obs m' x = obs m x) ∧
      (∀ x, x ≠ a → m' x = m x) := by
  by_cases ha : a = 0
  · subst ha
    have he := h.zero_eq hd
    subst he
    refine ⟨m, ?_, ⟨h.zero, ?_, ?_⟩, fun _ => rfl, fun _ _ => rfl⟩
    · unfold addRef; rw [hd]; simp [SD.isReadOnly, emptySD]
    · intro x e hx hm; rw [plus_ne _ hx]; exact h.blk x e hx hm
    · intro x hx hm; rw [plus_ne _ hx]; exact h.dead x hx hm
  · have hk := h.blk a d ha hd
    have hb := hb a ha
    unfold SD.isLocked at hl
    have hi : d.iRef = (c a : Int) := by omega
    have hr : ¬ d.isReadOnly := by unfold SD.isReadOnly; omega
    refine ⟨upd m a (some { d with iRef := d.iRef + 1 }), ?_, ⟨?_, ?_, ?_⟩, ?_, fun x hx => upd_ne _ _ hx⟩
    · unfold addRef; rw [hd]; dsimp only; rw [if_neg hr, if_neg hl]
    · rw [upd_ne _ _ (Ne.symm ha)]; exact h.zero
    · intro x e hx hm
      by_cases hap : x = a
      · subst hap; rw [upd_eq] at hm; cases hm; rw [plus_eq]; dsimp only; omega
      · rw [upd_ne _ _ hap] at hm; rw [plus_ne _ hap]; exact h.blk x e hx hm
    · intro x hx hm
      by_cases hap : x = a
      · subst hap; rw [upd_eq] at hm; cases hm
      · rw [upd_ne _ _ hap] at hm; rw [plus_ne _ hap]; exact h.dead x hx hm
    · intro x
      by_cases hap : x = a
      · subst hap; unfold obs; rw [upd_eq, hd]
        simp only [Option.map_some]
        have e1 : min (d.iRef + 1) 1 = 1 := by omega
        have e2 : min d.iRef 1 = 1 := by omega
        rw [e1, e2]
      · unfold obs; rw [upd_ne _ _ hap]

theorem round16_ge (n : Nat) : n ≤ round16 n := by unfold round16; omega

/-- the allocator answers with memory nobody uses; `realloc` of block `p` may also answer `p` -/
def Fresh (m : Mem) (p : Nat) (al : Al) : Prop :=
  ∀ q j, al = some (q, j) → q ≠ 0 ∧ (m q = none ∨ (q = p ∧ ∃ d, m p = some d ∧ ¬ d.isShared))

/-- what a successful `LockBuffer` that really locks leaves: the handle's block `d`, now `d1` at `q` -/
structure Locked (cls : Nat) (m : Mem) (p : Nat) (d : SD) (cap : Nat) (al : Al) (m' : Mem) (q : Nat) (d1 : SD) : Prop where
  nz : q ≠ 0
  get : m' q = some d1
  ref : d1.iRef = if d.iRef < 0 then d.iRef - 1 else -1
  room : cap ≤ d1.cap
  size_le : d.size ≤ d1.cap
  buf : ∀ k, k < d.size → d1.buf k = d.buf k
  shared : d.isShared → d1.size = 0 ∧ d1.enc = cls ∧ d1.buf d.size = 0 ∧ m q = none ∧ ∃ j, al = some (q, j)
  excl : ¬ d.isShared → d1.size = d.size ∧ d1.enc = d.enc ∧ (∀ k, k ≤ d.cap → d1.buf k = d.buf k) ∧ (cap ≤ d.cap → q = p ∧ d1.cap = d.cap)

theorem doLock_excl {m : Mem} {p : Nat} {d : SD} (hd : m p = some d) (he : Excl d) :
    doLock m p = .ret .ok (upd m p (some { d with iRef := if d.iRef < 0 then d.iRef - 1 else -1 })) p := by
  unfold doLock; rw [hd]; dsimp only
  unfold Excl at he
  have hr : ¬ d.isReadOnly := by unfold SD.isReadOnly imax; omega
  rw [if_neg hr, if_neg (by omega)]
  congr 4
  by_cases h : d.iRef = 1
  · rw [if_pos h, if_neg (by omega)]
  · rw [if_neg h, if_pos (by omega)]

theorem fresh_none {m : Mem} {p q : Nat} {d : SD} {j} (hf : Fresh m p (some (q, j))) (hd : m p = some d) (hs : d.isShared) :
    q ≠ 0 ∧ m q = none := by
  obtain ⟨h0, h1 | ⟨_, d', hd', hn⟩⟩ := hf q j rfl
  · exact ⟨h0, h1⟩
  · rw [hd] at hd'; cases hd'; exact absurd hs hn

/-- `LockBuffer`, all cases -/
theorem lockBuffer_ok {cls m o p d cap al} (h : WF cls m (plus o p)) (hb : Bd o) (hd : m p = some d)
    (hf : Fresh m p al) :
    (lockBuffer cls m p cap al = .ret .oom m p ∧ al = none ∧ (d.isShared ∨ d.cap < cap)) ∨
    (lockBuffer cls m p cap al = .thr m p ∧ d.isLocked ∧ d.cap < cap) ∨
    (cap = 0 ∧ d.size = 0 ∧ ∃ m', lockBuffer cls m p cap al = .ret .ok m' 0 ∧ Loc cls o m m' 0 ∧ d.isShared) ∨
    (∃ m' q d1, lockBuffer cls m p cap al = .ret .ok m' q ∧ Loc cls o m m' q ∧ Locked cls m p d cap al m' q d1) := by
  have hsz := h.size_le hd
  unfold lockBuffer
  rw [hd]; dsimp only
  have hC : ∃ C, C = (if cap < d.size then d.size else cap) ∧ cap ≤ C ∧ d.size ≤ C ∧ (cap ≤ d.cap → C ≤ d.cap) ∧ (d.cap < C → d.cap < cap) ∧ (C = 0 → cap = 0 ∧ d.size = 0) := by
    refine ⟨_, rfl, ?_⟩; split <;> omega
  obtain ⟨C, hC, c1, c2, c3, c4, c5⟩ := hC
  rw [← hC]
  by_cases hz : C = 0 ∧ d.cap = 0
  · rw [if_pos hz]
    by_cases hp : p = 0
    · subst hp
      have he := h.zero_eq hd
      refine .inr (.inr (.inl ⟨by omega, by omega, m, rfl, Loc.refl h, ?_⟩))
      subst he; simp [SD.isShared, emptySD, imax]
    · have := (h.blk p d hp hd).1; omega
  · rw [if_neg hz]
    by_cases hs : d.isShared
    · rw [if_pos hs]
      have hnC : (if C < d.size then d.size else C) = C := if_neg (by omega)
      by_cases hC0 : C = 0
      · -- an empty shared block: the clone is the static block
        have e : cloneData cls m d C al = some (m, 0) := by
          unfold cloneData; dsimp only; rw [hnC, if_pos hC0]
        rw [e]; dsimp only
        obtain ⟨m', e1, w, fr, ne, _⟩ := release_ok h hb
        rw [e1]; dsimp only
        have hp : p ≠ 0 := by
          intro hp; subst hp; have := h.zero_eq hd; subst this; exact hz ⟨hC0, rfl⟩
        have w0 := w.zero
        refine .inr (.inr (.inl ⟨by omega, by omega, m', ?_, ⟨⟨w.zero, ?_, ?_⟩, fr⟩, hs⟩))
        · unfold doLock; rw [w0]; dsimp only; rw [if_pos (by simp [SD.isReadOnly, emptySD])]
        · intro a e ha hm; rw [plus_ne _ ha]; exact w.blk a e ha hm
        · intro a ha hm; rw [plus_ne _ ha]; exact w.dead a ha hm
      · cases al with
        | none =>
          left
          have e : cloneData cls m d C none = none := by
            unfold cloneData; dsimp only; rw [hnC, if_neg hC0]; unfold allocData; rw [if_neg hC0]
          rw [e]; exact ⟨rfl, rfl, .inl hs⟩
        | some qj =>
          obtain ⟨q, j⟩ := qj
          obtain ⟨q0, qn⟩ := fresh_none hf hd hs
          have e : cloneData cls m d C (some (q, j)) = some (upd m q (some ⟨1, round16 (C + 1) - 1, 0, cls,
              fun k => if k = d.size then 0 else if k < d.size then d.buf k else if k = 0 then 0 else j k⟩), q) := by
            unfold cloneData; dsimp only; rw [hnC, if_neg hC0]; unfold allocData; rw [if_neg hC0]; dsimp only
            rw [upd_eq]; dsimp only; rw [upd_upd]
          rw [e]; dsimp only
          generalize hD : (⟨1, round16 (C + 1) - 1, 0, cls,
              fun k => if k = d.size then 0 else if k < d.size then d.buf k else if k = 0 then 0 else j k⟩ : SD) = D
          have r16 := round16_ge (C + 1)
          have D1 : D.iRef = 1 := by rw [← hD]
          have D2 : C ≤ D.cap := by rw [← hD]; dsimp only; omega
          have D3 : D.size = 0 := by rw [← hD]
          have D4 : D.enc = cls := by rw [← hD]
          have D5 : ∀ k, k < d.size → D.buf k = d.buf k := by
            intro k hk; rw [← hD]; dsimp only; rw [if_neg (by omega), if_pos hk]
          have D6 : D.buf d.size = 0 := by rw [← hD]; dsimp only; rw [if_pos rfl]
          clear hD
          have hqp : p ≠ q := by intro e; subst e; rw [hd] at qn; cases qn
          have w1 : WF cls (upd m q (some D)) (plus (plus o p) q) :=
            wf_new h q0 qn ⟨by omega, by omega⟩ (Or.inl D1)
          rw [plus_comm] at w1
          have oq : o q = 0 := by have := h.dead q q0 qn; rw [plus_ne _ (Ne.symm hqp)] at this; exact this
          have hb1 : Bd (plus o q) := by
            intro a ha
            by_cases hq : a = q
            · subst hq; rw [plus_eq, oq]; simp [imax]
            · rw [plus_ne _ hq]; exact hb a ha
          obtain ⟨m2, e1, w, fr, ne, _⟩ := release_ok w1 hb1
          rw [e1]; dsimp only
          have g2 : m2 q = some D := by rw [ne q (Ne.symm hqp), upd_eq]
          rw [doLock_excl g2 (Or.inl D1)]
          have ex : Excl { D with iRef := if D.iRef < 0 then D.iRef - 1 else -1 } := by
            right; dsimp only; split <;> omega
          have L := loc_set (d' := { D with iRef := if D.iRef < 0 then D.iRef - 1 else -1 }) w g2 q0 oq
            ⟨by dsimp only; omega, by dsimp only; omega⟩ ex
          refine .inr (.inr (.inr ⟨_, q, _, rfl, ⟨L.wf, ?_⟩, q0, upd_eq _ _ _, ?_, ?_, ?_, ?_, ?_, ?_⟩))
          · intro a ha
            rw [L.frame a ha, fr a (by simp only [plus]; omega)]
            have : a ≠ q := by intro e; subst e; omega
            unfold obs; rw [upd_ne _ _ this]
          · dsimp only; unfold SD.isShared at hs; rw [if_neg (by omega), if_neg (by omega)]
          · dsimp only; omega
          · dsimp only; omega
          · exact D5
          · exact fun _ => ⟨D3, D4, D6, qn, j, rfl⟩
          · exact fun hn => absurd hs hn
    · rw [if_neg hs]
      obtain ⟨hp, he, ho⟩ := shared_iff h hd hs
      have hpc := (h.blk p d hp hd).1
      by_cases hg : d.cap < C
      · rw [if_pos hg]
        by_cases hl : d.isLocked
        · rw [if_pos hl]; exact .inr (.inl ⟨rfl, hl, by omega⟩)
        · rw [if_neg hl]
          cases al with
          | none =>
            left
            have e : reallocData m p d C none = none := by unfold reallocData; rw [if_neg (by omega)]
            rw [e]; exact ⟨rfl, rfl, .inr (by omega)⟩
          | some qj =>
            obtain ⟨q, j⟩ := qj
            have i1 : d.iRef = 1 := by unfold Excl at he; unfold SD.isLocked at hl; omega
            have hq := hf q j rfl
            have hw : ∃ W, W = (if d.cap + d.cap / 2 < C + 1 then C + 1 else d.cap + d.cap / 2) ∧ C + 1 ≤ W := by
              refine ⟨_, rfl, ?_⟩; split <;> omega
            obtain ⟨W, hW, hW1⟩ := hw
            have e : reallocData m p d C (some (q, j)) = some (upd (upd m p none) q (some { d with
                cap := round16 W - 1
                buf := fun k => if k ≤ d.cap then d.buf k else j k }), q) := by
              unfold reallocData; rw [if_neg (by omega)]; dsimp only; rw [← hW]
            rw [e]; dsimp only
            generalize hD : ({ d with
                cap := round16 W - 1
                buf := fun k => if k ≤ d.cap then d.buf k else j k } : SD) = D
            have r16 := round16_ge W
            have D1 : D.iRef = 1 := by rw [← hD]; exact i1
            have D2 : C ≤ D.cap := by rw [← hD]; dsimp only; omega
            have D3 : D.size = d.size := by rw [← hD]
            have D4 : D.enc = d.enc := by rw [← hD]
            have D5 : ∀ k, k ≤ d.cap → D.buf k = d.buf k := by
              intro k hk; rw [← hD]; dsimp only; rw [if_pos hk]
            clear hD
            have oq : o q = 0 := by
              rcases hq.2 with hn | ⟨e, _⟩
              · have := h.dead q hq.1 hn
                by_cases hqp : q = p
                · subst hqp; exact ho
                · rw [plus_ne _ hqp] at this; exact this
              · rw [e]; exact ho
            obtain ⟨m1, em1, w1, fr1, ne1, dd, _⟩ := release_ok h hb
            have m1e : m1 = upd m p none := by
              funext a
              by_cases hap : a = p
              · subst hap; rw [upd_eq]; exact dd d hp hd hs
              · rw [ne1 a hap, upd_ne _ _ hap]
            rw [m1e] at w1 fr1
            have mq : (upd m p none) q = none := by
              by_cases hqp : q = p
              · rw [hqp, upd_eq]
              · rw [upd_ne _ _ hqp]
                rcases hq.2 with hn | ⟨e, _⟩
                · exact hn
                · exact absurd e hqp
            have w2 : WF cls (upd (upd m p none) q (some D)) (plus o q) :=
              wf_new w1 hq.1 mq ⟨by omega, by omega⟩ (Or.inl D1)
            rw [doLock_excl (upd_eq _ _ _) (Or.inl D1)]
            have L := loc_set (d' := { D with iRef := if D.iRef < 0 then D.iRef - 1 else -1 }) w2 (upd_eq _ _ _) hq.1 oq
              ⟨by dsimp only; omega, by dsimp only; omega⟩ (by right; dsimp only; split <;> omega)
            refine .inr (.inr (.inr ⟨_, q, _, rfl, ⟨L.wf, ?_⟩, hq.1, upd_eq _ _ _, ?_, ?_, ?_, ?_, ?_, ?_⟩))
            · intro a ha
              have : a ≠ q := by intro e; subst e; omega
              rw [L.frame a ha]
              refine Eq.trans ?_ (fr1 a ha)
              unfold obs; rw [upd_ne _ _ this]
            · dsimp only; rw [if_neg (by omega), if_neg (by omega)]
            · dsimp only; omega
            · dsimp only; omega
            · intro k hk; exact D5 k (by omega)
            · exact fun hn => absurd hn hs
            · exact fun _ => ⟨D3, D4, D5, fun hc => by omega⟩
      · rw [if_neg hg, doLock_excl hd he]
        unfold Excl at he
        have L := loc_set (d' := { d with iRef := if d.iRef < 0 then d.iRef - 1 else -1 }) h hd hp ho hpc
          (by right; dsimp only; split <;> omega)
        refine .inr (.inr (.inr ⟨_, p, _, rfl, L, hp, upd_eq _ _ _, rfl, ?_, ?_, fun k _ => rfl, ?_, ?_⟩))
        · dsimp only; omega
        · dsimp only; omega
        · exact fun hn => absurd hn hs
        · exact fun _ => ⟨rfl, rfl, fun k _ => rfl, fun _ => ⟨rfl, rfl⟩⟩

end Verif.StrHeap
