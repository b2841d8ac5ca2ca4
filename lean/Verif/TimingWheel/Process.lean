import Verif.TimingWheel.Fetch

namespace Verif.TimingWheel

theorem drainAll_spec {N w acc} (hb : BitsOk N w) :
    BitsOk N (drain N 0 N true (w, acc)).1 ∧ (∀ k t, ¬ t ∈ (drain N 0 N true (w, acc)).1.slot k) ∧
    (∀ t, t ∈ (drain N 0 N true (w, acc)).2 ↔ t ∈ acc ∨ ∃ k, t ∈ w.slot k) := by
  rw [drain_eq (Nat.le_refl _) hb]
  refine ⟨cleared_bits hb, ?_, ?_⟩
  · intro k t ht
    unfold cleared at ht; dsimp only at ht
    by_cases hk : k < N
    · rw [if_pos (by omega)] at ht; cases ht
    · rw [if_neg (by omega), hb.2 k (by omega)] at ht; cases ht
  · intro t
    simp only [List.mem_append, List.mem_flatMap, List.mem_range'_1]
    constructor
    · rintro (h | ⟨k, _, h⟩)
      · exact .inl h
      · exact .inr ⟨k, h⟩
    · rintro (h | ⟨k, h⟩)
      · exact .inl h
      · refine .inr ⟨k, ⟨Nat.zero_le _, ?_⟩, h⟩
        refine Classical.byContradiction fun hn => ?_
        rw [hb.2 k (by omega)] at h; cases h

section
variable (K : Nat)

def U1 (b k : Nat) (t : Tm) : Prop := i1 K t = k ∧ ms K t.exp ≤ b + 1024
def U2 (b k : Nat) (t : Tm) : Prop := i2 K t = k ∧ ms K t.exp ≤ b + 65536
def U3 (b k : Nat) (t : Tm) : Prop := i3 K t = k ∧ ms K t.exp ≤ b + 4194304

/-- wheel 2 while time moves from `b` to `c` -/
def V2 (F : Tm → Prop) (b c k : Nat) (t : Tm) : Prop :=
  U2 K c k t ∧ (b / 1024 < c / 1024 → ms K t.exp ≤ 1024 * (c / 1024 + 64) ∨ F t)
/-- wheel 3 while time moves from `b` to `c` -/
def V3 (F : Tm → Prop) (b c k : Nat) (t : Tm) : Prop :=
  U3 K c k t ∧ (b / 65536 < c / 65536 → ms K t.exp ≤ 65536 * (c / 65536 + 64) ∨ F t)
/-- taken out rightly: cancelled, expired, or excused -/
def VP (F : Tm → Prop) (cur : Nat) (canc : Nat → Bool) (t : Tm) : Prop := canc t.id = true ∨ ms K t.exp ≤ ms K cur ∨ F t

variable {K cur : Nat} {canc : Nat → Bool} {F : Tm → Prop} {b c : Nat}

theorem fetch3_V {m pend} (hc : c = ms K cur - ms K cur % 8) (g : Good (U1 K c) (V2 K F b c) (V3 K F b c) F (VP K F cur canc) m pend) :
    Good (U1 K c) (V2 K F b c) (V3 K F b c) F (VP K F cur canc) (fetch3 K cur canc m pend).1 (fetch3 K cur canc m pend).2 ∧
      Keeps m pend [] (fetch3 K cur canc m pend) := by
  refine fetch3_good g ?_
  intro t hF
  unfold ahead
  rw [← hc]
  refine ⟨fun _ => .inr (.inr hF), fun _ h => ⟨rfl, by omega⟩, fun _ _ h => ⟨⟨rfl, by omega⟩, (fun _ => .inr hF)⟩, fun _ _ h => ⟨⟨rfl, by omega⟩, (fun _ => .inr hF)⟩, fun _ _ => hF⟩

theorem fetch2_V {m pend j} (hc : c = ms K cur - ms K cur % 8) (hj : j % 64 = c / 65536 % 64) (hbc : b / 65536 < c / 65536)
    (g : Good (U1 K c) (V2 K F b c) (V3 K F b c) F (VP K F cur canc) m pend) :
    Good (U1 K c) (V2 K F b c) (V3 K F b c) F (VP K F cur canc) (fetch2 K cur canc j m pend).1 (fetch2 K cur canc j m pend).2 ∧
      Keeps m pend [] (fetch2 K cur canc j m pend) := by
  have key : ∃ m0 pend0, (if j % 64 = 0 then fetch3 K cur canc m pend else (m, pend)) = (m0, pend0) ∧
      Good (U1 K c) (V2 K F b c) (V3 K F b c) F (VP K F cur canc) m0 pend0 ∧ Keeps m pend [] (m0, pend0) := by
    by_cases h : j % 64 = 0
    · rw [if_pos h]; exact ⟨_, _, rfl, fetch3_V hc g⟩
    · rw [if_neg h]; exact ⟨_, _, rfl, g, fun t => by simp, rfl, rfl⟩
  obtain ⟨m0, pend0, e, g0, hk⟩ := key
  refine fetch2_good e g0 hk (fun k t h _ => h) ?_
  intro t ht
  obtain ⟨⟨h1, h2⟩, h3⟩ := ht
  replace h3 := h3 hbc
  unfold ahead
  rw [← hc]
  rw [hj] at h1
  unfold i3 at h1
  generalize hE : ms K t.exp = E at *
  have hE3 : ∀ (_ : E ≤ 65536 * (c / 65536 + 64)), E ≤ 65536 * (c / 65536 + 1) := by
    intro h; omega
  refine ⟨?_, ?_, ?_, ?_⟩
  · rintro (h | h)
    · exact .inl h
    · exact .inr (.inl h)
  · intro _ h; exact ⟨rfl, by omega⟩
  · intro _ _ h
    refine ⟨⟨rfl, by omega⟩, fun _ => ?_⟩
    rcases h3 with h3 | h3
    · left; rw [hE]; have := hE3 h3; omega
    · exact .inr h3
  · intro _ h
    rcases h3 with h3 | h3
    · exfalso; have := hE3 h3; omega
    · exact .inr (.inr h3)

theorem fetch1_V {m pend j} (hc : c = ms K cur - ms K cur % 8) (hj : j = c / 1024) (hbc : b / 1024 < c / 1024)
    (g : Good (U1 K c) (V2 K F b c) (V3 K F b c) F (VP K F cur canc) m pend) :
    Good (U1 K c) (V2 K F b c) (V3 K F b c) F (VP K F cur canc) (fetch1 K cur canc j m pend).1 (fetch1 K cur canc j m pend).2 ∧
      Keeps m pend [] (fetch1 K cur canc j m pend) := by
  have key : ∃ m0 pend0, (if j % 64 = 0 then fetch2 K cur canc (j / 64) m pend else (m, pend)) = (m0, pend0) ∧
      Good (U1 K c) (V2 K F b c) (V3 K F b c) F (VP K F cur canc) m0 pend0 ∧ Keeps m pend [] (m0, pend0) := by
    by_cases h : j % 64 = 0
    · rw [if_pos h]; exact ⟨_, _, rfl, fetch2_V hc (by omega) (by omega) g⟩
    · rw [if_neg h]; exact ⟨_, _, rfl, g, fun t => by simp, rfl, rfl⟩
  obtain ⟨m0, pend0, e, g0, hk⟩ := key
  refine fetch1_good e g0 hk (fun k t h _ => h) ?_
  intro t ht
  obtain ⟨⟨h1, h2⟩, h3⟩ := ht
  replace h3 := h3 hbc
  unfold ahead
  rw [← hc]
  unfold i2 at h1
  generalize hE : ms K t.exp = E at *
  have hE2 : ∀ (_ : E ≤ 1024 * (c / 1024 + 64)), E ≤ 1024 * (c / 1024 + 1) := by
    intro h; omega
  refine ⟨?_, ?_, ?_⟩
  · rintro (h | h)
    · exact .inl h
    · exact .inr (.inl h)
  · intro _ h; exact ⟨rfl, by omega⟩
  · intro _ h
    rcases h3 with h3 | h3
    · exfalso; have := hE2 h3; omega
    · exact .inr (.inr h3)

theorem tot_set1 {m : Mgr} {w t} : tot { m with w1 := w } t + cntN m.w1 t 128 = tot m t + cntN w t 128 := by
  unfold tot; dsimp only; omega
theorem tot_set2 {m : Mgr} {w t} : tot { m with w2 := w } t + cntN m.w2 t 64 = tot m t + cntN w t 64 := by
  unfold tot; dsimp only; omega
theorem tot_set3 {m : Mgr} {w t} : tot { m with w3 := w } t + cntN m.w3 t 64 = tot m t + cntN w t 64 := by
  unfold tot; dsimp only; omega

theorem Keeps.trans {m m1 : Mgr} {p p1 r} (h : Keeps m p [] (m1, p1)) (h' : Keeps m1 p1 [] r) : Keeps m p [] r := by
  obtain ⟨a, b, d⟩ := h
  obtain ⟨a', b', d'⟩ := h'
  refine ⟨fun t => ?_, b'.trans b, d'.trans d⟩
  have := a t; have := a' t
  simp only [List.count_nil] at *
  omega

/-- the whole of the collecting phase keeps the places sound and takes out only timers that may go -/
theorem collect_V {m} (hc : c = ms K cur - ms K cur % 8) (hb : m.base % 8 = 0) (hle : m.base ≤ ms K cur) (hne : m.base / 8 ≠ ms K cur / 8)
    (g : Good (U1 K m.base) (U2 K m.base) (U3 K m.base) F (fun _ => True) m []) :
    Good (U1 K c) (V2 K F m.base c) (V3 K F m.base c) F (VP K F cur canc) (collect K cur canc m).1 (collect K cur canc m).2 ∧
      Keeps m [] [] (collect K cur canc m) := by
  obtain ⟨g1, g2, g3, a1, a2, a3, a4, _⟩ := g
  generalize hu : ms K cur = u at *
  have n1 : ∀ k t, t ∈ m.w1.slot k → U1 K c k t := fun k t h => ⟨(a1 k t h).1, by have := (a1 k t h).2; omega⟩
  have n2 : ∀ k t, t ∈ m.w2.slot k → V2 K F m.base c k t := fun k t h =>
    ⟨⟨(a2 k t h).1, by have := (a2 k t h).2; omega⟩, fun hlt => .inl (by have := (a2 k t h).2; omega)⟩
  have n3 : ∀ k t, t ∈ m.w3.slot k → V3 K F m.base c k t := fun k t h =>
    ⟨⟨(a3 k t h).1, by have := (a3 k t h).2; omega⟩, fun hlt => .inl (by have := (a3 k t h).2; omega)⟩
  unfold collect
  rw [hu]
  dsimp only
  rw [show m.base + (u - m.base) = u by omega]
  by_cases h1 : u - m.base < 8 * 128
  · rw [if_pos h1]
    obtain ⟨db, dm, dp⟩ := drainWrap_spec (N := 128) (s := m.base / 8 % 128) (e := u / 8 % 128) (inc := false) (acc := []) (by omega) (by omega) g1
    have dc := fun t => drainWrap_count (N := 128) (s := m.base / 8 % 128) (e := u / 8 % 128) (inc := false) (acc := []) (t := t) (by omega) (by omega) g1
    generalize drainWrap 128 (m.base / 8 % 128) (u / 8 % 128) false m.w1 [] = r at *
    obtain ⟨w1, pend⟩ := r
    dsimp only at *
    have g' : Good (U1 K c) (V2 K F m.base c) (V3 K F m.base c) F (VP K F cur canc) { m with w1 := w1 } pend := by
      refine ⟨db, g2, g3, fun k t h => n1 k t ((dm k t).1 h).1, n2, n3, a4, ?_⟩
      intro t ht
      rcases (dp t).1 ht with h | ⟨k, hr, hk⟩
      · cases h
      · obtain ⟨x, y⟩ := a1 k t hk
        unfold i1 at x; unfold Rng at hr
        refine .inr (.inl ?_)
        rw [hu]
        generalize ms K t.exp = E at *
        omega
    have hk : Keeps m [] [] ({ m with w1 := w1 }, pend) := by
      refine ⟨fun t => ?_, rfl, rfl⟩
      have := dc t; have := tot_set1 (m := m) (w := w1) (t := t)
      simp only [List.count_nil] at *; omega
    by_cases hw : u / 8 % 128 < m.base / 8 % 128
    · rw [if_pos hw]
      obtain ⟨x, y⟩ := fetch1_V (b := m.base) (j := m.base / 8 / 128 + 1) (by rw [hu]; exact hc) (by omega) (by omega) g'
      exact ⟨x, hk.trans y⟩
    · rw [if_neg hw]; exact ⟨g', hk⟩
  · rw [if_neg h1]
    obtain ⟨db, dm, dp⟩ := drainAll_spec (acc := []) g1
    have dc := fun t => drain_count (N := 128) (i := 0) (lim := 128) (inc := true) (acc := []) (t := t) (Nat.le_refl _) g1
    generalize drain 128 0 128 true (m.w1, []) = r at *
    obtain ⟨w1, pend⟩ := r
    dsimp only at *
    have p1 : ∀ t ∈ pend, VP K F cur canc t := by
      intro t ht
      rcases (dp t).1 ht with h | ⟨k, hk⟩
      · cases h
      · obtain ⟨x, y⟩ := a1 k t hk
        exact .inr (.inl (by rw [hu]; omega))
    have e1 : ∀ k t, t ∈ w1.slot k → U1 K c k t := fun k t h => absurd h (dm k t)
    by_cases h2 : u - m.base < 8 * 128 * 64
    · rw [if_pos h2]
      have hk : Keeps m [] [] ({ m with w1 := w1 }, pend) := by
        refine ⟨fun t => ?_, rfl, rfl⟩
        have := dc t; have := tot_set1 (m := m) (w := w1) (t := t)
        simp only [List.count_nil] at *; omega
      have g' : Good (U1 K c) (V2 K F m.base c) (V3 K F m.base c) F (VP K F cur canc) { m with w1 := w1 } pend :=
        ⟨db, g2, g3, e1, n2, n3, a4, p1⟩
      have hlt : m.base / 1024 < c / 1024 := by omega
      rw [if_neg (show ¬ m.base / 8 / 128 = u / 8 / 128 by omega)]
      -- the slots of wheel 2 that are over
      have key : ∃ w2 pend2, (if m.base / 8 / 128 + 1 ≠ u / 8 / 128 then
          drainWrap 64 ((m.base / 8 / 128 + 1) % 64) (u / 8 / 128 % 64) true m.w2 pend else (m.w2, pend)) = (w2, pend2) ∧
          Good (U1 K c) (V2 K F m.base c) (V3 K F m.base c) F (VP K F cur canc) { m with w1 := w1, w2 := w2 } pend2 ∧
          Keeps m [] [] ({ m with w1 := w1, w2 := w2 }, pend2) := by
        by_cases hs : m.base / 8 / 128 + 1 ≠ u / 8 / 128
        · rw [if_pos hs]
          obtain ⟨db2, dm2, dp2⟩ := drainWrap_spec (N := 64) (s := (m.base / 8 / 128 + 1) % 64) (e := u / 8 / 128 % 64) (inc := true) (acc := pend) (by omega) (by omega) g2
          have dc2 := fun t => drainWrap_count (N := 64) (s := (m.base / 8 / 128 + 1) % 64) (e := u / 8 / 128 % 64) (inc := true) (acc := pend) (t := t) (by omega) (by omega) g2
          generalize drainWrap 64 ((m.base / 8 / 128 + 1) % 64) (u / 8 / 128 % 64) true m.w2 pend = r at *
          obtain ⟨w2, pend2⟩ := r
          dsimp only at *
          refine ⟨w2, pend2, rfl, ⟨db, db2, g3, e1, fun k t h => n2 k t ((dm2 k t).1 h).1, n3, a4, ?_⟩, ?_⟩
          · intro t ht
            rcases (dp2 t).1 ht with h | ⟨k, hr, hk⟩
            · exact p1 t h
            · obtain ⟨x, y⟩ := a2 k t hk
              unfold i2 at x; unfold Rng at hr
              refine .inr (.inl ?_)
              rw [hu]
              generalize ms K t.exp = E at *
              omega
          · refine ⟨fun t => ?_, rfl, rfl⟩
            have := dc2 t; have := tot_set2 (m := { m with w1 := w1 }) (w := w2) (t := t)
            have := hk.1 t
            simp only [List.count_nil] at *
            omega
        · rw [if_neg hs]; exact ⟨m.w2, pend, rfl, g', hk⟩
      obtain ⟨w2, pend2, e2, g2', hk2⟩ := key
      rw [e2]; dsimp only
      obtain ⟨x, y⟩ := fetch1_V (b := m.base) (j := u / 8 / 128) (by rw [hu]; exact hc) (by omega) hlt g2'
      have hk3 := hk2.trans y
      generalize fetch1 K cur canc (u / 8 / 128) { m with w1 := w1, w2 := w2 } pend2 = r at *
      obtain ⟨m3, pend3⟩ := r
      dsimp only at *
      by_cases hw : u / 8 / 128 % 64 < (m.base / 8 / 128 + 1) % 64
      · rw [if_pos hw]
        obtain ⟨x', y'⟩ := fetch2_V (b := m.base) (j := m.base / 8 / 128 / 64 + 1) (by rw [hu]; exact hc) (by omega) (by omega) x
        exact ⟨x', hk3.trans y'⟩
      · rw [if_neg hw]; exact ⟨x, hk3⟩
    · rw [if_neg h2]
      obtain ⟨db2, dm2, dp2⟩ := drainAll_spec (acc := pend) g2
      have dc2 := fun t => drain_count (N := 64) (i := 0) (lim := 64) (inc := true) (acc := pend) (t := t) (Nat.le_refl _) g2
      generalize drain 64 0 64 true (m.w2, pend) = r at *
      obtain ⟨w2, pend2⟩ := r
      dsimp only at *
      have p2 : ∀ t ∈ pend2, VP K F cur canc t := by
        intro t ht
        rcases (dp2 t).1 ht with h | ⟨k, hk⟩
        · exact p1 t h
        · obtain ⟨x, y⟩ := a2 k t hk
          exact .inr (.inl (by rw [hu]; omega))
      have e2 : ∀ k t, t ∈ w2.slot k → V2 K F m.base c k t := fun k t h => absurd h (dm2 k t)
      by_cases h3 : u - m.base < 8 * 128 * 64 * 64
      · rw [if_pos h3]
        have hlt : m.base / 65536 < c / 65536 := by omega
        rw [if_neg (show ¬ m.base / 8 / 128 / 64 = u / 8 / 128 / 64 by omega)]
        obtain ⟨db3, dm3, dp3⟩ := drainWrap_spec (N := 64) (s := (m.base / 8 / 128 / 64 + 1) % 64) (e := u / 8 / 128 / 64 % 64) (inc := true) (acc := pend2) (by omega) (by omega) g3
        have dc3 := fun t => drainWrap_count (N := 64) (s := (m.base / 8 / 128 / 64 + 1) % 64) (e := u / 8 / 128 / 64 % 64) (inc := true) (acc := pend2) (t := t) (by omega) (by omega) g3
        generalize drainWrap 64 ((m.base / 8 / 128 / 64 + 1) % 64) (u / 8 / 128 / 64 % 64) true m.w3 pend2 = r at *
        obtain ⟨w3, pend3⟩ := r
        dsimp only at *
        have g' : Good (U1 K c) (V2 K F m.base c) (V3 K F m.base c) F (VP K F cur canc) { m with w1 := w1, w2 := w2, w3 := w3 } pend3 := by
          refine ⟨db, db2, db3, e1, e2, fun k t h => n3 k t ((dm3 k t).1 h).1, a4, ?_⟩
          intro t ht
          rcases (dp3 t).1 ht with h | ⟨k, hr, hk⟩
          · exact p2 t h
          · obtain ⟨x, y⟩ := a3 k t hk
            unfold i3 at x; unfold Rng at hr
            refine .inr (.inl ?_)
            rw [hu]
            generalize ms K t.exp = E at *
            omega
        have hk3 : Keeps m [] [] ({ m with w1 := w1, w2 := w2, w3 := w3 }, pend3) := by
          refine ⟨fun t => ?_, rfl, rfl⟩
          have := dc t; have := dc2 t; have := dc3 t
          have := tot_set1 (m := m) (w := w1) (t := t)
          have := tot_set2 (m := { m with w1 := w1 }) (w := w2) (t := t)
          have := tot_set3 (m := { m with w1 := w1, w2 := w2 }) (w := w3) (t := t)
          simp only [List.count_nil] at *
          omega
        obtain ⟨x, y⟩ := fetch2_V (b := m.base) (j := u / 8 / 128 / 64) (by rw [hu]; exact hc) (by omega) hlt g'
        have hk4 := hk3.trans y
        generalize fetch2 K cur canc (u / 8 / 128 / 64) { m with w1 := w1, w2 := w2, w3 := w3 } pend3 = r at *
        obtain ⟨m4, pend4⟩ := r
        dsimp only at *
        by_cases hw : u / 8 / 128 / 64 % 64 < (m.base / 8 / 128 / 64 + 1) % 64
        · rw [if_pos hw]
          obtain ⟨x', y'⟩ := fetch3_V (b := m.base) (by rw [hu]; exact hc) x
          exact ⟨x', hk4.trans y'⟩
        · rw [if_neg hw]; exact ⟨x, hk4⟩
      · rw [if_neg h3]
        obtain ⟨db3, dm3, dp3⟩ := drainAll_spec (acc := pend2) g3
        have dc3 := fun t => drain_count (N := 64) (i := 0) (lim := 64) (inc := true) (acc := pend2) (t := t) (Nat.le_refl _) g3
        generalize drain 64 0 64 true (m.w3, pend2) = r at *
        obtain ⟨w3, pend3⟩ := r
        dsimp only at *
        have g' : Good (U1 K c) (V2 K F m.base c) (V3 K F m.base c) F (VP K F cur canc) { m with w1 := w1, w2 := w2, w3 := w3 } pend3 := by
          refine ⟨db, db2, db3, e1, e2, fun k t h => absurd h (dm3 k t), a4, ?_⟩
          intro t ht
          rcases (dp3 t).1 ht with h | ⟨k, hk⟩
          · exact p2 t h
          · obtain ⟨x, y⟩ := a3 k t hk
            exact .inr (.inl (by rw [hu]; omega))
        have hk3 : Keeps m [] [] ({ m with w1 := w1, w2 := w2, w3 := w3 }, pend3) := by
          refine ⟨fun t => ?_, rfl, rfl⟩
          have := dc t; have := dc2 t; have := dc3 t
          have := tot_set1 (m := m) (w := w1) (t := t)
          have := tot_set2 (m := { m with w1 := w1 }) (w := w2) (t := t)
          have := tot_set3 (m := { m with w1 := w1, w2 := w2 }) (w := w3) (t := t)
          simp only [List.count_nil] at *
          omega
        obtain ⟨x', y'⟩ := fetch3_V (b := m.base) (by rw [hu]; exact hc) g'
        exact ⟨x', hk3.trans y'⟩

end

end Verif.TimingWheel
