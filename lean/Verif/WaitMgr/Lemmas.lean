import Verif.WaitMgr.Model

namespace Verif.WaitMgr

/-- **Specification**: handle `x` is registered and paired with the wait `v` -/
def Paired (s : St) (x v : Nat) : Prop := ∃ i < s.cnt, s.h i = x ∧ s.p i = some v

/-- the arrays are in order -/
structure Core (hd : Nat → Nat) (s : St) : Prop where
  cap : s.cnt ≤ 63
  out : ∀ i, s.cnt ≤ i → s.h i = 0 ∧ s.p i = none
  slot : ∀ i < s.cnt, ∃ w, s.p i = some w ∧ hd w = s.h i
  nz : ∀ i < s.cnt, s.h i ≠ 0
  inj : ∀ i < s.cnt, ∀ j < s.cnt, s.h i = s.h j → i = j

structure Inv (hd : Nat → Nat) (s : St) : Prop where
  core : Core hd s
  tp : ∀ w, (s.ws w).alive = true → (s.ws w).tp = true → (s.ws w).status = .started → Paired s (hd w) w
  tpc : ∀ w, (s.ws w).status = .completed → (s.ws w).tp = false ∨ (s.ws w).alive = false
  pend : s.pend = []

theorem wsAt_alive (s : St) (i w : Nat) : (clearTp s i w).alive = (s.ws w).alive := by
  unfold clearTp; split <;> rfl
theorem wsAt_status (s : St) (i w : Nat) : (clearTp s i w).status = (s.ws w).status := by
  unfold clearTp; split <;> rfl
theorem wsAt_timeout (s : St) (i w : Nat) : (clearTp s i w).timeout = (s.ws w).timeout := by
  unfold clearTp; split <;> rfl
theorem wsAt_tp (s : St) (i w : Nat) (h : (clearTp s i w).tp = true) : (s.ws w).tp = true ∧ get s i ≠ some w := by
  unfold clearTp at h; split at h
  · cases h
  · rename_i h1; exact ⟨h, h1⟩

theorem get_eq {s : St} {i w : Nat} (h : get s i = some w) : s.p i = some w ∧ (s.ws w).alive = true := by
  unfold get at h; split at h
  · cases h
  · split at h
    · cases h; rename_i h1 h2; exact ⟨h1, h2⟩
    · cases h

theorem get_none {s : St} {i w : Nat} (h : get s i = none) (hp : s.p i = some w) : (s.ws w).alive = false := by
  unfold get at h; rw [hp] at h
  simp at h; exact h

theorem get_some {s : St} {i w : Nat} (hp : s.p i = some w) (ha : (s.ws w).alive = true) : get s i = some w := by
  unfold get; rw [hp]; simp [ha]

theorem removeAt_eq (s : St) (i : Nat) (hi : i < s.cnt) : removeAt s i =
    { s with ws := clearTp s i, cnt := s.cnt - 1,
             h := upd (upd s.h i (s.h (s.cnt - 1))) (s.cnt - 1) 0, p := upd (upd s.p i (s.p (s.cnt - 1))) (s.cnt - 1) none } := by
  unfold removeAt
  rw [if_neg (by omega)]
  by_cases e : i = s.cnt - 1
  · rw [if_pos e]
    congr 1 <;> (funext j; unfold upd; by_cases hj : j = s.cnt - 1 <;> simp [hj, e])
  · rw [if_neg e]

theorem removeAt_core {hd : Nat → Nat} {s : St} (c : Core hd s) {i : Nat} (hi : i < s.cnt) : Core hd (removeAt s i) := by
  rw [removeAt_eq s i hi]
  obtain ⟨h1, h2, h3, h4, h5⟩ := c
  refine ⟨by dsimp only; omega, ?_, ?_, ?_, ?_⟩ <;> simp only [upd] <;> grind

theorem removeAt_paired {hd : Nat → Nat} {s : St} (c : Core hd s) {i : Nat} (hi : i < s.cnt) (x v : Nat) :
    Paired (removeAt s i) x v ↔ Paired s x v ∧ x ≠ s.h i := by
  rw [removeAt_eq s i hi]
  obtain ⟨h1, h2, h3, h4, h5⟩ := c
  constructor
  · rintro ⟨j, hj, ha, hb⟩
    simp only [upd] at hj ha hb
    rw [if_neg (by omega)] at ha hb
    by_cases e : j = i
    · rw [if_pos e] at ha hb
      exact ⟨⟨s.cnt - 1, by omega, ha, hb⟩, fun hx => by have := h5 (s.cnt - 1) (by omega) i hi (by omega); omega⟩
    · rw [if_neg e] at ha hb
      exact ⟨⟨j, by omega, ha, hb⟩, fun hx => by have := h5 j (by omega) i hi (by omega); omega⟩
  · rintro ⟨⟨j, hj, ha, hb⟩, hx⟩
    have hji : j ≠ i := by rintro rfl; exact hx ha.symm
    by_cases e : j = s.cnt - 1
    · refine ⟨i, by dsimp only; omega, ?_, ?_⟩ <;> simp only [upd] <;> grind
    · refine ⟨j, by dsimp only; omega, ?_, ?_⟩ <;> simp only [upd] <;> grind

theorem removeAt_low {s : St} {i : Nat} (hi : i < s.cnt) {j : Nat} (hj : j < i) : (removeAt s i).h j = s.h j ∧ (removeAt s i).p j = s.p j := by
  rw [removeAt_eq s i hi]
  simp only [upd]
  constructor <;> rw [if_neg (by omega), if_neg (by omega)]

theorem removeAt_ws {s : St} {i : Nat} (hi : i < s.cnt) : (removeAt s i).ws = clearTp s i ∧ (removeAt s i).cnt = s.cnt - 1 ∧ (removeAt s i).pend = s.pend ∧
    (removeAt s i).delivered = s.delivered := by
  rw [removeAt_eq s i hi]; exact ⟨rfl, rfl, rfl, rfl⟩

theorem removeAt_inv {hd : Nat → Nat} {s : St} (hI : Inv hd s) {i : Nat} (hi : i < s.cnt) : Inv hd (removeAt s i) := by
  obtain ⟨e1, e2, e3, e4⟩ := removeAt_ws hi
  refine ⟨removeAt_core hI.core hi, ?_, ?_, by rw [e3]; exact hI.pend⟩
  · intro w ha ht hs
    rw [e1] at ha ht hs
    rw [wsAt_alive] at ha
    rw [wsAt_status] at hs
    obtain ⟨ht, hg⟩ := wsAt_tp _ _ _ ht
    have hp := hI.tp w ha ht hs
    rw [removeAt_paired hI.core hi]
    refine ⟨hp, fun hx => ?_⟩
    obtain ⟨j, hj, h1, h2⟩ := hp
    have : j = i := hI.core.inj j hj i hi (by omega)
    subst this
    exact hg (get_some h2 ha)
  · intro w hs
    rw [e1] at hs ⊢
    rw [wsAt_status] at hs
    rw [wsAt_alive]
    rcases hI.tpc w hs with h | h
    · left
      cases e : (clearTp s i w).tp with
      | false => rfl
      | true => have := (wsAt_tp _ _ _ e).1; rw [h] at this; cases this
    · exact .inr h

theorem findLoop_spec (s : St) (x : Nat) : ∀ (n i : Nat), (∃ j, i ≤ j ∧ j < i + n ∧ s.h j = x ∧ findLoop s x i n = j) ∨ ((∀ j, i ≤ j → j < i + n → s.h j ≠ x) ∧ findLoop s x i n = kMax)
  | 0, i => .inr ⟨fun j h1 h2 => by omega, rfl⟩
  | n + 1, i => by
    unfold findLoop
    by_cases e : s.h i = x
    · rw [if_pos e]; exact .inl ⟨i, Nat.le_refl _, by omega, e, rfl⟩
    · rw [if_neg e]
      rcases findLoop_spec s x n (i + 1) with ⟨j, h1, h2, h3, h4⟩ | ⟨h1, h2⟩
      · exact .inl ⟨j, by omega, by omega, h3, h4⟩
      · refine .inr ⟨fun j h3 h4 => ?_, h2⟩
        by_cases ej : j = i
        · rw [ej]; exact e
        · exact h1 j (by omega) (by omega)

theorem find_spec {hd : Nat → Nat} {s : St} (c : Core hd s) {x : Nat} (hx : x ≠ 0) :
    (∃ j < s.cnt, s.h j = x ∧ find s x = j ∧ find s x ≠ kMax) ∨ ((∀ j < s.cnt, s.h j ≠ x) ∧ find s x = kMax) := by
  unfold find
  rw [if_neg hx]
  rcases findLoop_spec s x s.cnt 0 with ⟨j, h1, h2, h3, h4⟩ | ⟨h1, h2⟩
  · refine .inl ⟨j, by omega, h3, h4, ?_⟩
    have := c.cap
    unfold kMax; omega
  · exact .inr ⟨fun j hj => h1 j (Nat.zero_le _) (by omega), h2⟩

theorem find_congr {s s' : St} (h1 : s'.h = s.h) (h2 : s'.cnt = s.cnt) (x : Nat) : find s' x = find s x := by
  have : ∀ n i, findLoop s' x i n = findLoop s x i n := by
    intro n
    induction n with
    | zero => intro i; rfl
    | succ n ih => intro i; unfold findLoop; rw [h1, ih]
  unfold find; rw [this, h2]

theorem core_congr {hd : Nat → Nat} {s s' : St} (c : Core hd s) (h1 : s'.h = s.h) (h2 : s'.p = s.p) (h3 : s'.cnt = s.cnt) : Core hd s' := by
  obtain ⟨a, b, d, e, f⟩ := c
  exact ⟨by rw [h3]; exact a, by rw [h3, h1, h2]; exact b, by rw [h3, h1, h2]; exact d, by rw [h3, h1]; exact e, by rw [h3, h1]; exact f⟩

end Verif.WaitMgr
