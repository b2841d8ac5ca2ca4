import Verif.TimingWheel.Model

namespace Verif.TimingWheel

theorem upd_eq {α} (f : Nat → α) (i : Nat) (v : α) : upd f i v i = v := by simp [upd]
theorem upd_ne {α} (f : Nat → α) {i j : Nat} (v : α) (h : j ≠ i) : upd f i v j = f j := by simp [upd, h]

/-! ### `find` and `drain` -/

theorem find_some {bit N i k} (h : find bit N i = some k) : i ≤ k ∧ bit k = true ∧ k < N := by
  unfold find at h
  have h1 := List.find?_some h
  have h2 := List.mem_of_find?_eq_some h
  simp only [Bool.and_eq_true, decide_eq_true_eq] at h1
  simp only [List.mem_range] at h2
  exact ⟨h1.1, h1.2, h2⟩

theorem find_none {bit N i} (h : find bit N i = none) : ∀ k, i ≤ k → k < N → bit k = false := by
  intro k h1 h2
  unfold find at h
  rw [List.find?_eq_none] at h
  have := h k (List.mem_range.2 h2)
  simpa [h1] using this

theorem find_least {bit N i k} (h : find bit N i = some k) : ∀ j, i ≤ j → j < k → bit j = false := by
  unfold find at h
  intro j h1 h2
  rw [List.find?_eq_some_iff_append] at h
  obtain ⟨_, as, bs, e, hn⟩ := h
  have hk := List.mem_of_find?_eq_some (l := List.range N) (p := fun x => decide (x = k)) (a := k)
  have hj : j ∈ as := by
    have hlen : as.length = k := by
      have : (List.range N)[as.length]? = some k := by rw [e]; simp
      rw [List.getElem?_eq_some_iff] at this
      obtain ⟨hl, he⟩ := this
      simpa using he
    have hget : as[j]? = some j := by
      have h3 : (List.range N)[j]? = as[j]? := by rw [e, List.getElem?_append_left (by omega)]
      have hN : as.length < N := by
        have : (List.range N).length = as.length + (bs.length + 1) := by rw [e]; simp
        simp at this; omega
      rw [← h3, List.getElem?_range (by omega)]
    exact List.mem_of_getElem? hget
  have := hn j hj
  simpa [h1] using this

theorem find_hit {bit N i} (hi : i < N) (hb : bit i = true) : find bit N i = some i := by
  cases h : find bit N i with
  | none => have := find_none h i (Nat.le_refl _) hi; rw [hb] at this; cases this
  | some k =>
    obtain ⟨h1, _, _⟩ := find_some h
    by_cases hk : k = i
    · rw [hk]
    · have := find_least h i (Nat.le_refl _) (by omega); rw [hb] at this; cases this

theorem find_skip {bit N i} (hb : bit i = false) : find bit N i = find bit N (i + 1) := by
  unfold find
  congr 1; funext k
  by_cases hk : k = i
  · subst hk; simp [hb]
  · congr 1; exact decide_eq_decide.2 (by omega)

/-- the bitmap of a wheel shows exactly its non-empty slots, and there are `N` slots -/
def BitsOk (N : Nat) (w : Wheel) : Prop := (∀ k, w.bit k = false ↔ w.slot k = []) ∧ ∀ k, N ≤ k → w.slot k = []

def cleared (w : Wheel) (i lim : Nat) : Wheel :=
  ⟨fun k => if i ≤ k ∧ k < lim then [] else w.slot k, fun k => if i ≤ k ∧ k < lim then false else w.bit k⟩

theorem cleared_self (w : Wheel) {i lim} (h : lim ≤ i) : cleared w i lim = w := by
  unfold cleared
  have : ∀ k, ¬ (i ≤ k ∧ k < lim) := by intro k; omega
  simp [this]

theorem drainLoop_skip {N lim inc f i r} (hb : r.1.bit i = false) :
    drainLoop N lim inc f i r = drainLoop N lim inc f (i + 1) r := by
  cases f with
  | zero => rfl
  | succ f =>
    obtain ⟨w, acc⟩ := r
    simp only [drainLoop]
    rw [find_skip (i := i) hb]

theorem drainLoop_eq {N lim inc} (hl : lim ≤ N) : ∀ d i f w acc, lim - i = d → d ≤ f → (∀ k, w.bit k = false → w.slot k = []) →
    drainLoop N lim inc f i (w, acc) = (cleared w i lim, acc ++ (List.range' i d).flatMap w.slot) := by
  intro d
  induction d with
  | zero =>
    intro i f w acc hd hf hb
    rw [cleared_self w (by omega)]
    simp only [List.range'_zero, List.flatMap_nil, List.append_nil]
    cases f with
    | zero => rfl
    | succ f =>
      simp only [drainLoop]
      cases h : find w.bit N i with
      | none => rfl
      | some k =>
        have := (find_some h).1
        dsimp only
        rw [if_pos (by omega)]
  | succ d ih =>
    intro i f w acc hd hf hb
    cases hbi : w.bit i with
    | false =>
      rw [drainLoop_skip hbi, ih (i + 1) f w acc (by omega) (by omega) hb]
      rw [List.range'_succ, List.flatMap_cons, hb i hbi, List.nil_append]
      congr 1
      unfold cleared
      congr 1 <;> funext k
      · by_cases hk : k = i
        · subst hk; simp [hb k hbi]
        · simp only [show (i + 1 ≤ k ∧ k < lim) ↔ (i ≤ k ∧ k < lim) by omega]
      · by_cases hk : k = i
        · subst hk; simp [hbi]
        · simp only [show (i + 1 ≤ k ∧ k < lim) ↔ (i ≤ k ∧ k < lim) by omega]
    | true =>
      obtain ⟨f, rfl⟩ : ∃ f', f = f' + 1 := ⟨f - 1, by omega⟩
      simp only [drainLoop]
      rw [find_hit (by omega) hbi]; dsimp only
      rw [if_neg (by omega)]
      have hb' : ∀ k, (⟨upd w.slot i [], upd w.bit i false⟩ : Wheel).bit k = false → (⟨upd w.slot i [], upd w.bit i false⟩ : Wheel).slot k = [] := by
        intro k hk
        dsimp only at hk ⊢
        by_cases e : k = i
        · subst e; rw [upd_eq]
        · rw [upd_ne _ _ e] at hk ⊢; exact hb k hk
      have go : ∀ j, (j = i ∨ j = i + 1) → drainLoop N lim inc f j (⟨upd w.slot i [], upd w.bit i false⟩, acc ++ w.slot i) =
          (cleared w i lim, acc ++ (List.range' i (d + 1)).flatMap w.slot) := by
        intro j hj
        have : drainLoop N lim inc f j (⟨upd w.slot i [], upd w.bit i false⟩, acc ++ w.slot i) =
            drainLoop N lim inc f (i + 1) (⟨upd w.slot i [], upd w.bit i false⟩, acc ++ w.slot i) := by
          rcases hj with rfl | rfl
          · exact drainLoop_skip (by dsimp only; rw [upd_eq])
          · rfl
        rw [this, ih (i + 1) f _ _ (by omega) (by omega) hb']
        rw [List.range'_succ, List.flatMap_cons, ← List.append_assoc]
        congr 1
        · unfold cleared
          congr 1 <;> funext k
          · by_cases hk : k = i
            · subst hk
              rw [if_neg (by omega), if_pos (by omega)]; dsimp only; rw [upd_eq]
            · dsimp only; rw [upd_ne _ _ hk]
              simp only [show (i + 1 ≤ k ∧ k < lim) ↔ (i ≤ k ∧ k < lim) by omega]
          · by_cases hk : k = i
            · subst hk
              rw [if_neg (by omega), if_pos (by omega)]; dsimp only; rw [upd_eq]
            · dsimp only; rw [upd_ne _ _ hk]
              simp only [show (i + 1 ≤ k ∧ k < lim) ↔ (i ≤ k ∧ k < lim) by omega]
        · congr 1
          rw [List.flatMap_def, List.flatMap_def]
          congr 1
          apply List.map_congr_left
          intro k hk
          have := List.mem_range'_1.1 hk
          dsimp only; rw [upd_ne _ _ (by omega)]
      cases inc
      · simpa using go i (.inl rfl)
      · simpa using go (i + 1) (.inr rfl)

theorem drain_eq {N lim inc i w acc} (hl : lim ≤ N) (hb : BitsOk N w) :
    drain N i lim inc (w, acc) = (cleared w i lim, acc ++ (List.range' i (lim - i)).flatMap w.slot) :=
  drainLoop_eq hl (lim - i) i (N + 1) w acc rfl (by omega) (fun k h => (hb.1 k).1 h)

theorem cleared_bits {N w i lim} (hb : BitsOk N w) : BitsOk N (cleared w i lim) := by
  constructor
  · intro k; unfold cleared; dsimp only; split
    · simp
    · exact hb.1 k
  · intro k hk; unfold cleared; dsimp only; split
    · rfl
    · exact hb.2 k hk

/-- the slots of `[s, e)` where `e` may have wrapped around -/
def Rng (s e k : Nat) : Prop := (s ≤ e ∧ s ≤ k ∧ k < e) ∨ (e < s ∧ (s ≤ k ∨ k < e))

theorem drainWrap_spec {N s e inc w acc} (hs : s < N) (he : e < N) (hb : BitsOk N w) :
    BitsOk N (drainWrap N s e inc w acc).1 ∧
    (∀ k t, t ∈ (drainWrap N s e inc w acc).1.slot k ↔ t ∈ w.slot k ∧ ¬ Rng s e k) ∧
    (∀ t, t ∈ (drainWrap N s e inc w acc).2 ↔ t ∈ acc ∨ ∃ k, Rng s e k ∧ t ∈ w.slot k) := by
  unfold drainWrap
  dsimp only
  by_cases h : s ≤ e
  · rw [if_neg (by omega), if_pos h, drain_eq (by omega) hb]
    refine ⟨cleared_bits hb, ?_, ?_⟩
    · intro k t
      unfold cleared Rng; dsimp only
      by_cases hk : s ≤ k ∧ k < e
      · rw [if_pos hk]; simp only [List.not_mem_nil, false_iff]; rintro ⟨_, h2⟩; exact h2 (.inl ⟨h, hk.1, hk.2⟩)
      · rw [if_neg hk]
        constructor
        · intro ht; exact ⟨ht, by omega⟩
        · intro ht; exact ht.1
    · intro t
      simp only [List.mem_append, List.mem_flatMap, List.mem_range'_1]
      constructor
      · rintro (h' | ⟨k, hk, ht⟩)
        · exact .inl h'
        · exact .inr ⟨k, .inl (by omega), ht⟩
      · rintro (h' | ⟨k, hk, ht⟩)
        · exact .inl h'
        · refine .inr ⟨k, ?_, ht⟩; unfold Rng at hk; omega
  · rw [if_pos (by omega), if_neg h, drain_eq (Nat.le_refl _) hb, drain_eq (by omega) (cleared_bits hb)]
    refine ⟨cleared_bits (cleared_bits hb), ?_, ?_⟩
    · intro k t
      unfold cleared Rng; dsimp only
      by_cases hk : 0 ≤ k ∧ k < e
      · rw [if_pos hk]; simp only [List.not_mem_nil, false_iff]; rintro ⟨_, h2⟩; exact h2 (.inr ⟨by omega, .inr hk.2⟩)
      · rw [if_neg hk]
        by_cases hk2 : s ≤ k ∧ k < N
        · rw [if_pos hk2]; simp only [List.not_mem_nil, false_iff]; rintro ⟨_, h2⟩; exact h2 (.inr ⟨by omega, .inl hk2.1⟩)
        · rw [if_neg hk2]
          constructor
          · intro ht
            refine ⟨ht, ?_⟩
            have : k < N := by
              refine Classical.byContradiction fun hn => ?_
              rw [hb.2 k (by omega)] at ht; cases ht
            omega
          · intro ht; exact ht.1
    · intro t
      simp only [List.mem_append, List.mem_flatMap, List.mem_range'_1]
      constructor
      · rintro ((h' | ⟨k, hk, ht⟩) | ⟨k, hk, ht⟩)
        · exact .inl h'
        · exact .inr ⟨k, .inr (by omega), ht⟩
        · unfold cleared at ht; dsimp only at ht
          rw [if_neg (by omega)] at ht
          exact .inr ⟨k, .inr (by omega), ht⟩
      · rintro (h' | ⟨k, hk, ht⟩)
        · exact .inl (.inl h')
        · have hkN : k < N := by
            refine Classical.byContradiction fun hn => ?_
            rw [hb.2 k (by omega)] at ht; cases ht
          unfold Rng at hk
          by_cases hks : s ≤ k
          · exact .inl (.inr ⟨k, by omega, ht⟩)
          · refine .inr ⟨k, by omega, ?_⟩
            unfold cleared; dsimp only; rw [if_neg (by omega)]; exact ht

/-! ### Counting -/

/-- how often `t` occurs in the slots below `N` -/
def cntN (w : Wheel) (t : Tm) : Nat → Nat
  | 0 => 0
  | n + 1 => cntN w t n + (w.slot n).count t

theorem cntN_upd {slot bit bit' v t k} : ∀ N, k < N →
    cntN ⟨upd slot k v, bit'⟩ t N + (slot k).count t = cntN ⟨slot, bit⟩ t N + v.count t := by
  intro N
  have low : ∀ n, n ≤ k → cntN ⟨upd slot k v, bit'⟩ t n = cntN ⟨slot, bit⟩ t n := by
    intro n
    induction n with
    | zero => intro _; rfl
    | succ n ih => intro hn; simp only [cntN]; rw [ih (by omega), upd_ne _ _ (by omega)]
  induction N with
  | zero => intro h; omega
  | succ N ih =>
    intro h
    simp only [cntN]
    by_cases hk : k = N
    · subst hk; rw [low k (Nat.le_refl _), upd_eq]; omega
    · have := ih (by omega); rw [upd_ne _ _ (by omega)]; omega

theorem cntN_push {w : Wheel} {k t x N} (h : k < N) : cntN (w.push k x) t N = cntN w t N + [x].count t := by
  have := cntN_upd (slot := w.slot) (bit := w.bit) (bit' := upd w.bit k true) (v := w.slot k ++ [x]) (t := t) N h
  rw [List.count_append, show cntN ⟨w.slot, w.bit⟩ t N = cntN w t N from rfl] at this
  unfold Wheel.push; omega

theorem cntN_take {w : Wheel} {k t N} (h : k < N) : cntN (w.take k) t N + (w.slot k).count t = cntN w t N := by
  have := cntN_upd (slot := w.slot) (bit := w.bit) (bit' := upd w.bit k false) (v := []) (t := t) N h
  simpa [Wheel.take] using this

theorem cntN_cleared {w : Wheel} {t i lim} : ∀ N, lim ≤ N →
    cntN (cleared w i lim) t N + ((List.range' i (lim - i)).flatMap w.slot).count t = cntN w t N := by
  -- one slot at a time
  have one : ∀ d i, i + d = lim → ∀ N, lim ≤ N → cntN (cleared w i lim) t N + ((List.range' i d).flatMap w.slot).count t = cntN w t N := by
    intro d
    induction d with
    | zero => intro i h N _; rw [cleared_self w (by omega)]; simp
    | succ d ih =>
      intro i h N hN
      have h1 := ih (i + 1) (by omega) N hN
      have e : cleared w i lim = ⟨upd (cleared w (i + 1) lim).slot i [], (cleared w i lim).bit⟩ := by
        unfold cleared; congr 1; funext k
        by_cases hk : k = i
        · subst hk; rw [upd_eq, if_pos (by omega)]
        · rw [upd_ne _ _ hk]; dsimp only; simp only [show (i + 1 ≤ k ∧ k < lim) ↔ (i ≤ k ∧ k < lim) by omega]
      have h2 := cntN_upd (slot := (cleared w (i + 1) lim).slot) (bit := (cleared w (i + 1) lim).bit) (bit' := (cleared w i lim).bit) (v := [])
        (t := t) N (show i < N by omega)
      rw [← e] at h2
      have h3 : (cleared w (i + 1) lim).slot i = w.slot i := by unfold cleared; dsimp only; rw [if_neg (by omega)]
      rw [h3] at h2
      rw [List.range'_succ, List.flatMap_cons, List.count_append]
      simp only [List.count_nil] at h2
      have h4 : cntN ⟨(cleared w (i + 1) lim).slot, (cleared w (i + 1) lim).bit⟩ t N = cntN (cleared w (i + 1) lim) t N := rfl
      rw [h4] at h2
      omega
  intro N h
  by_cases hi : i ≤ lim
  · exact one (lim - i) i (by omega) N h
  · rw [cleared_self w (by omega), show lim - i = 0 by omega]; simp

theorem drain_count {N lim inc i w acc t} (hl : lim ≤ N) (hb : BitsOk N w) :
    cntN (drain N i lim inc (w, acc)).1 t N + (drain N i lim inc (w, acc)).2.count t = cntN w t N + acc.count t := by
  rw [drain_eq hl hb]; dsimp only
  rw [List.count_append]
  have := cntN_cleared (w := w) (t := t) (i := i) (lim := lim) N hl
  omega

theorem drainWrap_count {N s e inc w acc t} (_hs : s < N) (he : e < N) (hb : BitsOk N w) :
    cntN (drainWrap N s e inc w acc).1 t N + (drainWrap N s e inc w acc).2.count t = cntN w t N + acc.count t := by
  unfold drainWrap; dsimp only
  by_cases h : s ≤ e
  · rw [if_neg (by omega), if_pos h]; exact drain_count (by omega) hb
  · rw [if_pos (by omega), if_neg h]
    have h1 := drain_count (inc := inc) (i := s) (acc := acc) (t := t) (Nat.le_refl N) hb
    have hb' : BitsOk N (drain N s N inc (w, acc)).1 := by rw [drain_eq (Nat.le_refl _) hb]; exact cleared_bits hb
    have h2 := drain_count (inc := true) (i := 0) (acc := (drain N s N inc (w, acc)).2) (t := t) (Nat.le_of_lt he) hb'
    have : ((drain N s N inc (w, acc)).1, (drain N s N inc (w, acc)).2) = drain N s N inc (w, acc) := rfl
    rw [this] at h2
    omega

theorem push_bits {N w k t} (hb : BitsOk N w) (hk : k < N) : BitsOk N (w.push k t) := by
  constructor
  · intro j; unfold Wheel.push; dsimp only
    by_cases h : j = k
    · subst h; simp [upd_eq]
    · rw [upd_ne _ _ h, upd_ne _ _ h]; exact hb.1 j
  · intro j hj; unfold Wheel.push; dsimp only
    rw [upd_ne _ _ (by omega)]; exact hb.2 j hj

theorem take_bits {N w k} (hb : BitsOk N w) : BitsOk N (w.take k) := by
  constructor
  · intro j; unfold Wheel.take; dsimp only
    by_cases h : j = k
    · subst h; simp [upd_eq]
    · rw [upd_ne _ _ h, upd_ne _ _ h]; exact hb.1 j
  · intro j hj; unfold Wheel.take; dsimp only
    by_cases h : j = k
    · subst h; simp [upd_eq]
    · rw [upd_ne _ _ h]; exact hb.2 j hj

end Verif.TimingWheel
