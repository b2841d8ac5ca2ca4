import Verif.TimingWheel.Process

/-! The lower bounds: after processing, nothing that is overdue by a tick is left (unless a cascade was missed). -/

namespace Verif.TimingWheel

section
variable (K : Nat)

def L1 (c k : Nat) (t : Tm) : Prop := i1 K t = k ∧ c < ms K t.exp
def L2 (c k : Nat) (t : Tm) : Prop := i2 K t = k ∧ c / 1024 < (ms K t.exp - 1) / 8 / 128
def L3 (c k : Nat) (t : Tm) : Prop := i3 K t = k ∧ c / 65536 < (ms K t.exp - 1) / 8 / 128 / 64
def L4 (c : Nat) (t : Tm) : Prop := c / 4194304 < (ms K t.exp - 1) / 8 / 128 / 64 / 64

/-- wheel 2 before its current slot is fetched -/
def M2 (c k : Nat) (t : Tm) : Prop := i2 K t = k ∧ (c / 1024 < (ms K t.exp - 1) / 8 / 128 ∨ k = c / 1024 % 64)
def M3 (c k : Nat) (t : Tm) : Prop := i3 K t = k ∧ (c / 65536 < (ms K t.exp - 1) / 8 / 128 / 64 ∨ k = c / 65536 % 64)

variable {K cur : Nat} {canc : Nat → Bool} {c : Nat} {P2 P3 : Nat → Tm → Prop} {Q4 : Tm → Prop}

/-- where a timer is put when it is not yet due -/
theorem put (hc : c = ms K cur - ms K cur % 8) {t} (hd : ¬ Due K cur canc t) :
    L1 K c (i1 K t) t ∧ (1024 < ahead K cur t → L2 K c (i2 K t) t) ∧ (65536 < ahead K cur t → L3 K c (i3 K t) t) ∧
      (4194304 < ahead K cur t → L4 K c t) := by
  have h : ms K cur < ms K t.exp := by
    refine Classical.byContradiction fun hn => hd (.inr (by omega))
  unfold ahead
  rw [← hc]
  unfold L1 L2 L3 L4
  generalize ms K t.exp = E at *
  generalize ms K cur = u at *
  refine ⟨⟨rfl, by omega⟩, fun h => ⟨rfl, by omega⟩, fun h => ⟨rfl, by omega⟩, fun h => by omega⟩

theorem fetch3_L {m pend} (hc : c = ms K cur - ms K cur % 8) (h2 : ∀ k t, L2 K c k t → P2 k t) (h3 : ∀ k t, L3 K c k t → P3 k t)
    (g : Good (L1 K c) P2 P3 Q4 (fun _ => True) m pend) :
    Good (L1 K c) P2 P3 (L4 K c) (fun _ => True) (fetch3 K cur canc m pend).1 (fetch3 K cur canc m pend).2 := by
  refine (fetch3_good g ?_).1
  intro t _
  exact ⟨fun _ => trivial, fun hd _ => (put hc hd).1, fun hd a _ => h2 _ _ ((put hc hd).2.1 a), fun hd a _ => h3 _ _ ((put hc hd).2.2.1 a),
    fun hd a => (put hc hd).2.2.2 a⟩

theorem fetch2_rule {j} (hc : c = ms K cur - ms K cur % 8) (h2 : ∀ k t, L2 K c k t → P2 k t) (t : Tm) (_ : M3 K c (j % 64) t) :
    (Due K cur canc t → True) ∧ (¬ Due K cur canc t → ahead K cur t ≤ 1024 → L1 K c (i1 K t) t) ∧
      (¬ Due K cur canc t → 1024 < ahead K cur t → ahead K cur t ≤ 65536 → P2 (i2 K t) t) ∧
      (¬ Due K cur canc t → 65536 < ahead K cur t → True) :=
  ⟨fun _ => trivial, fun hd _ => (put hc hd).1, fun hd a _ => h2 _ _ ((put hc hd).2.1 a), fun _ _ => trivial⟩

theorem M3_take {j k t} (hj : j % 64 = c / 65536 % 64) (h : M3 K c k t) (hk : k ≠ j % 64) : L3 K c k t :=
  ⟨h.1, h.2.resolve_right (by rw [← hj]; exact hk)⟩

theorem fetch2_L0 {m pend j} (hc : c = ms K cur - ms K cur % 8) (hj : j % 64 = c / 65536 % 64) (hz : j % 64 ≠ 0)
    (h2 : ∀ k t, L2 K c k t → P2 k t) (g : Good (L1 K c) P2 (M3 K c) Q4 (fun _ => True) m pend) :
    Good (L1 K c) P2 (L3 K c) Q4 (fun _ => True) (fetch2 K cur canc j m pend).1 (fetch2 K cur canc j m pend).2 :=
  (fetch2_good (m0 := m) (pend0 := pend) (by rw [if_neg hz]) g ⟨fun t => by simp, rfl, rfl⟩ (fun _ _ h hk => M3_take hj h hk)
    (fetch2_rule hc h2)).1

theorem fetch2_L1 {m pend j} (hc : c = ms K cur - ms K cur % 8) (hj : j % 64 = c / 65536 % 64) (hz : j % 64 = 0)
    (h2 : ∀ k t, L2 K c k t → P2 k t) (g : Good (L1 K c) P2 (M3 K c) Q4 (fun _ => True) m pend)
    (hkeep : Keeps m pend [] (fetch3 K cur canc m pend)) :
    Good (L1 K c) P2 (L3 K c) (L4 K c) (fun _ => True) (fetch2 K cur canc j m pend).1 (fetch2 K cur canc j m pend).2 :=
  (fetch2_good (by rw [if_pos hz]) (fetch3_L hc h2 (fun _ _ h => ⟨h.1, .inl h.2⟩) g) hkeep (fun _ _ h hk => M3_take hj h hk)
    (fetch2_rule hc h2)).1

theorem fetch1_rule {j} (hc : c = ms K cur - ms K cur % 8) (t : Tm) (_ : M2 K c (j % 64) t) :
    (Due K cur canc t → True) ∧ (¬ Due K cur canc t → ahead K cur t ≤ 1024 → L1 K c (i1 K t) t) ∧
      (¬ Due K cur canc t → 1024 < ahead K cur t → True) :=
  ⟨fun _ => trivial, fun hd _ => (put hc hd).1, fun _ _ => trivial⟩

theorem M2_take {j k t} (hj : j = c / 1024) (h : M2 K c k t) (hk : k ≠ j % 64) : L2 K c k t :=
  ⟨h.1, h.2.resolve_right (by rw [← hj]; exact hk)⟩

theorem fetch1_L0 {m pend j} (hc : c = ms K cur - ms K cur % 8) (hj : j = c / 1024) (hz : j % 64 ≠ 0)
    (g : Good (L1 K c) (M2 K c) P3 Q4 (fun _ => True) m pend) :
    Good (L1 K c) (L2 K c) P3 Q4 (fun _ => True) (fetch1 K cur canc j m pend).1 (fetch1 K cur canc j m pend).2 :=
  (fetch1_good (m0 := m) (pend0 := pend) (by rw [if_neg hz]) g ⟨fun t => by simp, rfl, rfl⟩ (fun _ _ h hk => M2_take hj h hk)
    (fetch1_rule hc)).1

/-- any state is sound for trivial conditions, so a fetch keeps every timer -/
theorem keeps3 {m pend} (b1 : BitsOk 128 m.w1) (b2 : BitsOk 64 m.w2) (b3 : BitsOk 64 m.w3) : Keeps m pend [] (fetch3 K cur canc m pend) :=
  (fetch3_good (P1 := fun _ _ => True) (P2 := fun _ _ => True) (P3 := fun _ _ => True) (P4 := fun _ => True) (P4' := fun _ => True) (PP := fun _ => True)
    ⟨b1, b2, b3, by simp, by simp, by simp, by simp, by simp⟩ (by simp)).2

theorem keeps2 {m pend j} (b1 : BitsOk 128 m.w1) (b2 : BitsOk 64 m.w2) (b3 : BitsOk 64 m.w3) :
    Good (fun _ _ => True) (fun _ _ => True) (fun _ _ => True) (fun _ => True) (fun _ => True) (fetch2 K cur canc j m pend).1 (fetch2 K cur canc j m pend).2 ∧
    Keeps m pend [] (fetch2 K cur canc j m pend) := by
  have g : Good (fun _ _ => True) (fun _ _ => True) (fun _ _ => True) (fun _ => True) (fun _ => True) m pend :=
    ⟨b1, b2, b3, by simp, by simp, by simp, by simp, by simp⟩
  by_cases h : j % 64 = 0
  · have g' := fetch3_good (K := K) (cur := cur) (canc := canc) (P4' := fun _ => True) g (by simp)
    exact fetch2_good (by rw [if_pos h]) g'.1 g'.2 (by simp) (by simp)
  · exact fetch2_good (m0 := m) (pend0 := pend) (by rw [if_neg h]) g ⟨fun t => by simp, rfl, rfl⟩ (by simp) (by simp)

theorem fetch1_L1 {m pend j} (hc : c = ms K cur - ms K cur % 8) (hj : j = c / 1024) (hz : j % 64 = 0)
    (h4 : c / 65536 % 64 ≠ 0 → ∀ t, Q4 t → L4 K c t)
    (g : Good (L1 K c) (M2 K c) (M3 K c) Q4 (fun _ => True) m pend) :
    Good (L1 K c) (L2 K c) (L3 K c) (L4 K c) (fun _ => True) (fetch1 K cur canc j m pend).1 (fetch1 K cur canc j m pend).2 := by
  have hj2 : j / 64 % 64 = c / 65536 % 64 := by omega
  have g2 : Good (L1 K c) (M2 K c) (L3 K c) (L4 K c) (fun _ => True) (fetch2 K cur canc (j / 64) m pend).1 (fetch2 K cur canc (j / 64) m pend).2 := by
    by_cases h : j / 64 % 64 = 0
    · exact fetch2_L1 hc hj2 h (fun _ _ h => ⟨h.1, .inl h.2⟩) g (keeps3 g.b1 g.b2 g.b3)
    · exact (fetch2_L0 hc hj2 h (fun _ _ h => ⟨h.1, .inl h.2⟩) g).mono (fun _ _ h => h) (fun _ _ h => h) (fun _ _ h => h)
        (h4 (by omega)) (fun _ h => h)
  exact (fetch1_good (by rw [if_pos hz]) g2 (keeps2 g.b1 g.b2 g.b3).2 (fun _ _ h hk => M2_take hj h hk) (fetch1_rule hc)).1

/-- the calls of `ProcessingTimerTasks`, from base `b` to time `u` (milliseconds), that miss no cascade: every call that is less than 1024 ms
after the last one, or at least 2^22 ms; a call in between unless the base lies in the last slot of its wheel (number 63) and the time beyond
the first slot of the next round -/
def Clean (b u : Nat) : Prop :=
  (1024 ≤ u - b → u - b < 65536 → b / 1024 % 64 = 63 → u / 1024 = b / 1024 + 1) ∧
  (65536 ≤ u - b → u - b < 4194304 → b / 65536 % 64 = 63 → u / 65536 = b / 65536 + 1)

theorem collect_L {m} (hc : c = ms K cur - ms K cur % 8) (hb : m.base % 8 = 0) (hle : m.base ≤ ms K cur) (hne : m.base / 8 ≠ ms K cur / 8)
    (hcl : Clean m.base (ms K cur))
    (g : Good (L1 K m.base) (L2 K m.base) (L3 K m.base) (L4 K m.base) (fun _ => True) m []) :
    Good (L1 K c) (L2 K c) (L3 K c) (L4 K c) (fun _ => True) (collect K cur canc m).1 (collect K cur canc m).2 := by
  obtain ⟨g1, g2, g3, a1, a2, a3, a4, _⟩ := g
  unfold Clean at hcl
  generalize hu : ms K cur = u at *
  have hcu : c = ms K cur - ms K cur % 8 := by rw [hu]; exact hc
  unfold collect
  rw [hu]
  dsimp only
  rw [show m.base + (u - m.base) = u by omega]
  by_cases h1 : u - m.base < 8 * 128
  · rw [if_pos h1]
    obtain ⟨db, dm, _⟩ := drainWrap_spec (N := 128) (s := m.base / 8 % 128) (e := u / 8 % 128) (inc := false) (acc := []) (by omega) (by omega) g1
    generalize drainWrap 128 (m.base / 8 % 128) (u / 8 % 128) false m.w1 [] = r at *
    obtain ⟨w1, pend⟩ := r
    dsimp only at *
    have e1 : ∀ k t, t ∈ w1.slot k → L1 K c k t := by
      intro k t ht
      obtain ⟨x, hr⟩ := (dm k t).1 ht
      obtain ⟨y, z⟩ := a1 k t x
      refine ⟨y, ?_⟩
      unfold i1 at y; unfold Rng at hr
      generalize ms K t.exp = E at *
      omega
    by_cases hw : u / 8 % 128 < m.base / 8 % 128
    · rw [if_pos hw]
      have e2 : ∀ k t, t ∈ m.w2.slot k → M2 K c k t := by
        intro k t ht
        obtain ⟨y, z⟩ := a2 k t ht
        refine ⟨y, ?_⟩
        unfold i2 at y
        generalize ms K t.exp = E at *
        omega
      by_cases hz : (m.base / 8 / 128 + 1) % 64 = 0
      · refine fetch1_L1 (Q4 := L4 K m.base) hcu (by omega) hz ?_ ⟨db, g2, g3, e1, e2, ?_, a4, fun _ _ => trivial⟩
        · intro hz2 t ht; unfold L4 at *; omega
        · intro k t ht
          obtain ⟨y, z⟩ := a3 k t ht
          refine ⟨y, ?_⟩
          unfold i3 at y
          generalize ms K t.exp = E at *
          omega
      · refine fetch1_L0 hcu (by omega) hz ⟨db, g2, g3, e1, e2, ?_, ?_, fun _ _ => trivial⟩
        · intro k t ht
          obtain ⟨y, z⟩ := a3 k t ht
          exact ⟨y, by omega⟩
        · intro t ht
          have := a4 t ht
          unfold L4 at *; omega
    · rw [if_neg hw]
      refine ⟨db, g2, g3, e1, ?_, ?_, ?_, fun _ _ => trivial⟩
      · intro k t ht; obtain ⟨y, z⟩ := a2 k t ht; exact ⟨y, by omega⟩
      · intro k t ht; obtain ⟨y, z⟩ := a3 k t ht; exact ⟨y, by omega⟩
      · intro t ht; have := a4 t ht; unfold L4 at *; omega
  · rw [if_neg h1]
    obtain ⟨db, dm, _⟩ := drainAll_spec (acc := []) g1
    generalize drain 128 0 128 true (m.w1, []) = r at *
    obtain ⟨w1, pend⟩ := r
    dsimp only at *
    have e1 : ∀ k t, t ∈ w1.slot k → L1 K c k t := fun k t h => absurd h (dm k t)
    by_cases h2 : u - m.base < 8 * 128 * 64
    · rw [if_pos h2]
      rw [if_neg (show ¬ m.base / 8 / 128 = u / 8 / 128 by omega)]
      have key : ∃ w2 pend2, (if m.base / 8 / 128 + 1 ≠ u / 8 / 128 then
          drainWrap 64 ((m.base / 8 / 128 + 1) % 64) (u / 8 / 128 % 64) true m.w2 pend else (m.w2, pend)) = (w2, pend2) ∧
          BitsOk 64 w2 ∧ ∀ k t, t ∈ w2.slot k → M2 K c k t := by
        by_cases hs : m.base / 8 / 128 + 1 ≠ u / 8 / 128
        · rw [if_pos hs]
          obtain ⟨db2, dm2, _⟩ := drainWrap_spec (N := 64) (s := (m.base / 8 / 128 + 1) % 64) (e := u / 8 / 128 % 64) (inc := true) (acc := pend) (by omega) (by omega) g2
          refine ⟨_, _, rfl, db2, ?_⟩
          intro k t ht
          obtain ⟨x, hr⟩ := (dm2 k t).1 ht
          obtain ⟨y, z⟩ := a2 k t x
          refine ⟨y, ?_⟩
          unfold i2 at y; unfold Rng at hr
          generalize ms K t.exp = E at *
          omega
        · rw [if_neg hs]
          refine ⟨_, _, rfl, g2, ?_⟩
          intro k t ht
          obtain ⟨y, z⟩ := a2 k t ht
          refine ⟨y, ?_⟩
          unfold i2 at y
          generalize ms K t.exp = E at *
          omega
      obtain ⟨w2, pend2, e2, db2, m2⟩ := key
      rw [e2]; dsimp only
      have m3 : m.base / 65536 < c / 65536 → ∀ k t, t ∈ m.w3.slot k → M3 K c k t := by
        intro hlt k t ht
        obtain ⟨y, z⟩ := a3 k t ht
        refine ⟨y, ?_⟩
        unfold i3 at y
        generalize ms K t.exp = E at *
        omega
      by_cases hz : u / 8 / 128 % 64 = 0
      · have x := fetch1_L1 (Q4 := L4 K m.base) (canc := canc) (pend := pend2) (m := { m with w1 := w1, w2 := w2 }) hcu (by omega) hz
          (by intro hz2 t ht; unfold L4 at *; omega) ⟨db, db2, g3, e1, m2, m3 (by omega), a4, fun _ _ => trivial⟩
        generalize fetch1 K cur canc (u / 8 / 128) { m with w1 := w1, w2 := w2 } pend2 = r at *
        obtain ⟨m3, pend3⟩ := r
        dsimp only at *
        by_cases hw : u / 8 / 128 % 64 < (m.base / 8 / 128 + 1) % 64
        · rw [if_pos hw]
          have x' := x.mono (P3' := M3 K c) (fun _ _ h => h) (fun _ _ h => h) (fun _ _ h => ⟨h.1, .inl h.2⟩) (fun _ h => h) (fun _ h => h)
          by_cases hz2 : (m.base / 8 / 128 / 64 + 1) % 64 = 0
          · exact fetch2_L1 hcu (by omega) hz2 (fun _ _ h => h) x' (keeps3 x'.b1 x'.b2 x'.b3)
          · exact fetch2_L0 hcu (by omega) hz2 (fun _ _ h => h) x'
        · rw [if_neg hw]; exact x
      · by_cases hw : u / 8 / 128 % 64 < (m.base / 8 / 128 + 1) % 64
        · have x := fetch1_L0 (P3 := M3 K c) (Q4 := L4 K m.base) (canc := canc) (pend := pend2) (m := { m with w1 := w1, w2 := w2 }) hcu (by omega) hz
            ⟨db, db2, g3, e1, m2, m3 (by omega), a4, fun _ _ => trivial⟩
          generalize fetch1 K cur canc (u / 8 / 128) { m with w1 := w1, w2 := w2 } pend2 = r at *
          obtain ⟨m4, pend3⟩ := r
          dsimp only at *
          rw [if_pos hw]
          by_cases hz2 : (m.base / 8 / 128 / 64 + 1) % 64 = 0
          · exact fetch2_L1 hcu (by omega) hz2 (fun _ _ h => h) x (keeps3 x.b1 x.b2 x.b3)
          · exact (fetch2_L0 hcu (by omega) hz2 (fun _ _ h => h) x).mono (fun _ _ h => h) (fun _ _ h => h) (fun _ _ h => h)
              (fun t ht => by unfold L4 at *; omega) (fun _ h => h)
        · have hB : c / 65536 = m.base / 65536 := by omega
          have x := fetch1_L0 (P3 := L3 K c) (Q4 := L4 K c) (canc := canc) (pend := pend2) (m := { m with w1 := w1, w2 := w2 }) hcu (by omega) hz
            ⟨db, db2, g3, e1, m2, (fun k t ht => by obtain ⟨y, z⟩ := a3 k t ht; exact ⟨y, by omega⟩),
              (fun t ht => by have := a4 t ht; unfold L4 at *; omega), fun _ _ => trivial⟩
          generalize fetch1 K cur canc (u / 8 / 128) { m with w1 := w1, w2 := w2 } pend2 = r at *
          obtain ⟨m4, pend3⟩ := r
          dsimp only at *
          rw [if_neg hw]; exact x
    · rw [if_neg h2]
      obtain ⟨db2, dm2, _⟩ := drainAll_spec (acc := pend) g2
      generalize drain 64 0 64 true (m.w2, pend) = r at *
      obtain ⟨w2, pend2⟩ := r
      dsimp only at *
      have e2 : ∀ k t, t ∈ w2.slot k → L2 K c k t := fun k t h => absurd h (dm2 k t)
      by_cases h3 : u - m.base < 8 * 128 * 64 * 64
      · rw [if_pos h3]
        rw [if_neg (show ¬ m.base / 8 / 128 / 64 = u / 8 / 128 / 64 by omega)]
        obtain ⟨db3, dm3, _⟩ := drainWrap_spec (N := 64) (s := (m.base / 8 / 128 / 64 + 1) % 64) (e := u / 8 / 128 / 64 % 64) (inc := true) (acc := pend2) (by omega) (by omega) g3
        generalize drainWrap 64 ((m.base / 8 / 128 / 64 + 1) % 64) (u / 8 / 128 / 64 % 64) true m.w3 pend2 = r at *
        obtain ⟨w3, pend3⟩ := r
        dsimp only at *
        have m3 : ∀ k t, t ∈ w3.slot k → M3 K c k t := by
          intro k t ht
          obtain ⟨x, hr⟩ := (dm3 k t).1 ht
          obtain ⟨y, z⟩ := a3 k t x
          refine ⟨y, ?_⟩
          unfold i3 at y; unfold Rng at hr
          generalize ms K t.exp = E at *
          omega
        have g' : Good (L1 K c) (L2 K c) (M3 K c) (L4 K m.base) (fun _ => True) { m with w1 := w1, w2 := w2, w3 := w3 } pend3 :=
          ⟨db, db2, db3, e1, e2, m3, a4, fun _ _ => trivial⟩
        by_cases hz : u / 8 / 128 / 64 % 64 = 0
        · have x := fetch2_L1 (j := u / 8 / 128 / 64) (canc := canc) hcu (by omega) hz (fun _ _ h => h) g' (keeps3 db db2 db3)
          generalize fetch2 K cur canc (u / 8 / 128 / 64) { m with w1 := w1, w2 := w2, w3 := w3 } pend3 = r at *
          obtain ⟨m4, pend4⟩ := r
          dsimp only at *
          by_cases hw : u / 8 / 128 / 64 % 64 < (m.base / 8 / 128 / 64 + 1) % 64
          · rw [if_pos hw]; exact fetch3_L hcu (fun _ _ h => h) (fun _ _ h => h) x
          · rw [if_neg hw]; exact x
        · have x := fetch2_L0 (j := u / 8 / 128 / 64) (canc := canc) hcu (by omega) hz (fun _ _ h => h) g'
          generalize fetch2 K cur canc (u / 8 / 128 / 64) { m with w1 := w1, w2 := w2, w3 := w3 } pend3 = r at *
          obtain ⟨m4, pend4⟩ := r
          dsimp only at *
          by_cases hw : u / 8 / 128 / 64 % 64 < (m.base / 8 / 128 / 64 + 1) % 64
          · rw [if_pos hw]; exact fetch3_L hcu (fun _ _ h => h) (fun _ _ h => h) x
          · rw [if_neg hw]
            exact x.mono (fun _ _ h => h) (fun _ _ h => h) (fun _ _ h => h) (fun t ht => by unfold L4 at *; omega) (fun _ h => h)
      · rw [if_neg h3]
        obtain ⟨db3, dm3, _⟩ := drainAll_spec (acc := pend2) g3
        generalize drain 64 0 64 true (m.w3, pend2) = r at *
        obtain ⟨w3, pend3⟩ := r
        dsimp only at *
        exact fetch3_L (Q4 := L4 K m.base) (P2 := L2 K c) (P3 := L3 K c) hcu (fun _ _ h => h) (fun _ _ h => h)
          ⟨db, db2, db3, e1, e2, fun k t h => absurd h (dm3 k t), a4, fun _ _ => trivial⟩

end

end Verif.TimingWheel
