import Verif.TimingWheel.Lemmas

namespace Verif.TimingWheel

/-- a condition on every timer by the place it is in, with sound bitmaps -/
structure Good (P1 P2 P3 : Nat → Tm → Prop) (P4 PP : Tm → Prop) (m : Mgr) (pend : List Tm) : Prop where
  b1 : BitsOk 128 m.w1
  b2 : BitsOk 64 m.w2
  b3 : BitsOk 64 m.w3
  a1 : ∀ k t, t ∈ m.w1.slot k → P1 k t
  a2 : ∀ k t, t ∈ m.w2.slot k → P2 k t
  a3 : ∀ k t, t ∈ m.w3.slot k → P3 k t
  a4 : ∀ t, t ∈ m.others → P4 t
  ap : ∀ t, t ∈ pend → PP t

/-- occurrences of `t` in the manager -/
def tot (m : Mgr) (t : Tm) : Nat := cntN m.w1 t 128 + cntN m.w2 t 64 + cntN m.w3 t 64 + m.others.count t

/-- what a phase of processing guarantees besides the conditions on places: nothing lost or duplicated, the clocks untouched -/
def Keeps (m : Mgr) (pend : List Tm) (extra : List Tm) (r : Mgr × List Tm) : Prop :=
  (∀ t, tot r.1 t + r.2.count t = tot m t + pend.count t + extra.count t) ∧ r.1.base = m.base ∧ r.1.last = m.last

section
variable {P1 P2 P3 P1' P2' P3' : Nat → Tm → Prop} {P4 PP P4' PP' : Tm → Prop}

theorem Good.mono {m pend} (g : Good P1 P2 P3 P4 PP m pend) (h1 : ∀ k t, P1 k t → P1' k t) (h2 : ∀ k t, P2 k t → P2' k t)
    (h3 : ∀ k t, P3 k t → P3' k t) (h4 : ∀ t, P4 t → P4' t) (hp : ∀ t, PP t → PP' t) : Good P1' P2' P3' P4' PP' m pend :=
  ⟨g.b1, g.b2, g.b3, fun k t h => h1 k t (g.a1 k t h), fun k t h => h2 k t (g.a2 k t h), fun k t h => h3 k t (g.a3 k t h),
    fun t h => h4 t (g.a4 t h), fun t h => hp t (g.ap t h)⟩

theorem mem_push {w : Wheel} {k j t x} : x ∈ (w.push k t).slot j ↔ x ∈ w.slot j ∨ (j = k ∧ x = t) := by
  unfold Wheel.push; dsimp only
  by_cases h : j = k
  · subst h; rw [upd_eq]; simp
  · rw [upd_ne _ _ h]; simp [h]

theorem mem_take {w : Wheel} {k j x} : x ∈ (w.take k).slot j ↔ x ∈ w.slot j ∧ j ≠ k := by
  unfold Wheel.take; dsimp only
  by_cases h : j = k
  · subst h; rw [upd_eq]; simp
  · rw [upd_ne _ _ h]; simp [h]

theorem Good.push1 {m pend k t} (g : Good P1 P2 P3 P4 PP m pend) (hk : k < 128) (h : P1 k t) :
    Good P1 P2 P3 P4 PP { m with w1 := m.w1.push k t } pend := by
  refine ⟨push_bits g.b1 hk, g.b2, g.b3, ?_, g.a2, g.a3, g.a4, g.ap⟩
  intro j x hx
  rcases mem_push.1 hx with hx | ⟨rfl, rfl⟩
  · exact g.a1 j x hx
  · exact h

theorem Good.push2 {m pend k t} (g : Good P1 P2 P3 P4 PP m pend) (hk : k < 64) (h : P2 k t) :
    Good P1 P2 P3 P4 PP { m with w2 := m.w2.push k t } pend := by
  refine ⟨g.b1, push_bits g.b2 hk, g.b3, g.a1, ?_, g.a3, g.a4, g.ap⟩
  intro j x hx
  rcases mem_push.1 hx with hx | ⟨rfl, rfl⟩
  · exact g.a2 j x hx
  · exact h

theorem Good.push3 {m pend k t} (g : Good P1 P2 P3 P4 PP m pend) (hk : k < 64) (h : P3 k t) :
    Good P1 P2 P3 P4 PP { m with w3 := m.w3.push k t } pend := by
  refine ⟨g.b1, g.b2, push_bits g.b3 hk, g.a1, g.a2, ?_, g.a4, g.ap⟩
  intro j x hx
  rcases mem_push.1 hx with hx | ⟨rfl, rfl⟩
  · exact g.a3 j x hx
  · exact h

theorem Good.pend {m pend t} (g : Good P1 P2 P3 P4 PP m pend) (h : PP t) : Good P1 P2 P3 P4 PP m (pend ++ [t]) := by
  refine ⟨g.b1, g.b2, g.b3, g.a1, g.a2, g.a3, g.a4, ?_⟩
  intro x hx
  rcases List.mem_append.1 hx with hx | hx
  · exact g.ap x hx
  · rw [List.mem_singleton] at hx; subst hx; exact h

theorem tot_push1 {m : Mgr} {k t x} (hk : k < 128) : tot { m with w1 := m.w1.push k t } x = tot m x + [t].count x := by
  unfold tot; dsimp only; rw [cntN_push hk]; omega
theorem tot_push2 {m : Mgr} {k t x} (hk : k < 64) : tot { m with w2 := m.w2.push k t } x = tot m x + [t].count x := by
  unfold tot; dsimp only; rw [cntN_push hk]; omega
theorem tot_push3 {m : Mgr} {k t x} (hk : k < 64) : tot { m with w3 := m.w3.push k t } x = tot m x + [t].count x := by
  unfold tot; dsimp only; rw [cntN_push hk]; omega

theorem count_cons' (t : Tm) (l : List Tm) (x : Tm) : (t :: l).count x = [t].count x + l.count x := by
  rw [show t :: l = [t] ++ l from rfl, List.count_append]

end

section
variable (K cur : Nat) (canc : Nat → Bool)

/-- cancelled or expired (in milliseconds) -/
def Due (t : Tm) : Prop := canc t.id = true ∨ ms K t.exp ≤ ms K cur

/-- milliseconds from the new base to the expiry -/
def ahead (t : Tm) : Nat := ms K t.exp - (ms K cur - ms K cur % 8)

def i1 (t : Tm) : Nat := (ms K t.exp - 1) / 8 % 128
def i2 (t : Tm) : Nat := (ms K t.exp - 1) / 8 / 128 % 64
def i3 (t : Tm) : Nat := (ms K t.exp - 1) / 8 / 128 / 64 % 64

variable {K cur canc}
variable {P1 P2 P3 P1' P2' P3' : Nat → Tm → Prop} {P4 PP P4' PP' : Tm → Prop}

theorem fold1 : ∀ (l : List Tm) (m : Mgr) (pend : List Tm), Good P1 P2 P3 P4 PP m pend →
    (∀ t ∈ l, (Due K cur canc t → PP t) ∧ (¬ Due K cur canc t → ahead K cur t ≤ 1024 → P1 (i1 K t) t) ∧
      (¬ Due K cur canc t → 1024 < ahead K cur t → PP t)) →
    Good P1 P2 P3 P4 PP (l.foldl (place1 K cur canc) (m, pend)).1 (l.foldl (place1 K cur canc) (m, pend)).2 ∧
    Keeps m pend l (l.foldl (place1 K cur canc) (m, pend)) := by
  intro l
  induction l with
  | nil => intro m pend g _; exact ⟨g, fun t => by simp, rfl, rfl⟩
  | cons t l ih =>
    intro m pend g h
    obtain ⟨h1, h2, h3⟩ := h t (by simp)
    have hl : ∀ t ∈ l, _ := fun x hx => h x (List.mem_cons_of_mem _ hx)
    rw [List.foldl_cons]
    by_cases hd : Due K cur canc t
    · have e : place1 K cur canc (m, pend) t = (m, pend ++ [t]) := by
        unfold place1; dsimp only; rw [if_pos (show canc t.id = true ∨ ms K t.exp ≤ ms K cur from hd)]
      rw [e]
      obtain ⟨a, b, c, d⟩ := ih m (pend ++ [t]) (g.pend (h1 hd)) hl
      refine ⟨a, fun x => ?_, c, d⟩
      have := b x; rw [List.count_append] at this; rw [count_cons']; omega
    · by_cases hc : ahead K cur t ≤ 1024
      · have e : place1 K cur canc (m, pend) t = ({ m with w1 := m.w1.push (i1 K t) t }, pend) := by
          unfold place1; dsimp only; rw [if_neg (show ¬ (canc t.id = true ∨ ms K t.exp ≤ ms K cur) from hd), if_pos (show ms K t.exp - (ms K cur - ms K cur % 8) ≤ 8 * 128 from hc)]; rfl
        rw [e]
        have hk : i1 K t < 128 := Nat.mod_lt _ (by omega)
        obtain ⟨a, b, c, d⟩ := ih _ pend (g.push1 hk (h2 hd hc)) hl
        refine ⟨a, fun x => ?_, c, d⟩
        have := b x; rw [tot_push1 hk] at this; rw [count_cons']; omega
      · have e : place1 K cur canc (m, pend) t = (m, pend ++ [t]) := by
          unfold place1; dsimp only; rw [if_neg (show ¬ (canc t.id = true ∨ ms K t.exp ≤ ms K cur) from hd), if_neg (show ¬ ms K t.exp - (ms K cur - ms K cur % 8) ≤ 8 * 128 from hc)]
        rw [e]
        obtain ⟨a, b, c, d⟩ := ih m (pend ++ [t]) (g.pend (h3 hd (by omega))) hl
        refine ⟨a, fun x => ?_, c, d⟩
        have := b x; rw [List.count_append] at this; rw [count_cons']; omega

theorem fold2 : ∀ (l : List Tm) (m : Mgr) (pend : List Tm), Good P1 P2 P3 P4 PP m pend →
    (∀ t ∈ l, (Due K cur canc t → PP t) ∧ (¬ Due K cur canc t → ahead K cur t ≤ 1024 → P1 (i1 K t) t) ∧
      (¬ Due K cur canc t → 1024 < ahead K cur t → ahead K cur t ≤ 65536 → P2 (i2 K t) t) ∧
      (¬ Due K cur canc t → 65536 < ahead K cur t → PP t)) →
    Good P1 P2 P3 P4 PP (l.foldl (place2 K cur canc) (m, pend)).1 (l.foldl (place2 K cur canc) (m, pend)).2 ∧
    Keeps m pend l (l.foldl (place2 K cur canc) (m, pend)) := by
  intro l
  induction l with
  | nil => intro m pend g _; exact ⟨g, fun t => by simp, rfl, rfl⟩
  | cons t l ih =>
    intro m pend g h
    obtain ⟨h1, h2, h3, h4⟩ := h t (by simp)
    have hl : ∀ t ∈ l, _ := fun x hx => h x (List.mem_cons_of_mem _ hx)
    rw [List.foldl_cons]
    by_cases hd : Due K cur canc t
    · have e : place2 K cur canc (m, pend) t = (m, pend ++ [t]) := by
        unfold place2; dsimp only; rw [if_pos (show canc t.id = true ∨ ms K t.exp ≤ ms K cur from hd)]
      rw [e]
      obtain ⟨a, b, c, d⟩ := ih m (pend ++ [t]) (g.pend (h1 hd)) hl
      refine ⟨a, fun x => ?_, c, d⟩
      have := b x; rw [List.count_append] at this; rw [count_cons']; omega
    · by_cases hc : ahead K cur t ≤ 1024
      · have e : place2 K cur canc (m, pend) t = ({ m with w1 := m.w1.push (i1 K t) t }, pend) := by
          unfold place2; dsimp only; rw [if_neg (show ¬ (canc t.id = true ∨ ms K t.exp ≤ ms K cur) from hd), if_pos (show ms K t.exp - (ms K cur - ms K cur % 8) ≤ 8 * 128 from hc)]; rfl
        rw [e]
        have hk : i1 K t < 128 := Nat.mod_lt _ (by omega)
        obtain ⟨a, b, c, d⟩ := ih _ pend (g.push1 hk (h2 hd hc)) hl
        refine ⟨a, fun x => ?_, c, d⟩
        have := b x; rw [tot_push1 hk] at this; rw [count_cons']; omega
      · by_cases hc2 : ahead K cur t ≤ 65536
        · have e : place2 K cur canc (m, pend) t = ({ m with w2 := m.w2.push (i2 K t) t }, pend) := by
            unfold place2; dsimp only; rw [if_neg (show ¬ (canc t.id = true ∨ ms K t.exp ≤ ms K cur) from hd), if_neg (show ¬ ms K t.exp - (ms K cur - ms K cur % 8) ≤ 8 * 128 from hc), if_pos (show ms K t.exp - (ms K cur - ms K cur % 8) ≤ 8 * 128 * 64 from hc2)]; rfl
          rw [e]
          have hk : i2 K t < 64 := Nat.mod_lt _ (by omega)
          obtain ⟨a, b, c, d⟩ := ih _ pend (g.push2 hk (h3 hd (by omega) hc2)) hl
          refine ⟨a, fun x => ?_, c, d⟩
          have := b x; rw [tot_push2 hk] at this; rw [count_cons']; omega
        · have e : place2 K cur canc (m, pend) t = (m, pend ++ [t]) := by
            unfold place2; dsimp only; rw [if_neg (show ¬ (canc t.id = true ∨ ms K t.exp ≤ ms K cur) from hd), if_neg (show ¬ ms K t.exp - (ms K cur - ms K cur % 8) ≤ 8 * 128 from hc), if_neg (show ¬ ms K t.exp - (ms K cur - ms K cur % 8) ≤ 8 * 128 * 64 from hc2)]
          rw [e]
          obtain ⟨a, b, c, d⟩ := ih m (pend ++ [t]) (g.pend (h4 hd (by omega))) hl
          refine ⟨a, fun x => ?_, c, d⟩
          have := b x; rw [List.count_append] at this; rw [count_cons']; omega

theorem fold3 : ∀ (l : List Tm) (m : Mgr) (pend rest : List Tm), Good P1 P2 P3 P4 PP m pend → (∀ t ∈ rest, P4' t) →
    (∀ t ∈ l, (Due K cur canc t → PP t) ∧ (¬ Due K cur canc t → ahead K cur t ≤ 1024 → P1 (i1 K t) t) ∧
      (¬ Due K cur canc t → 1024 < ahead K cur t → ahead K cur t ≤ 65536 → P2 (i2 K t) t) ∧
      (¬ Due K cur canc t → 65536 < ahead K cur t → ahead K cur t ≤ 4194304 → P3 (i3 K t) t) ∧
      (¬ Due K cur canc t → 4194304 < ahead K cur t → P4' t)) →
    ∃ m' pend' rest', l.foldl (place3 K cur canc) (m, pend, rest) = (m', pend', rest') ∧
      Good P1 P2 P3 P4 PP m' pend' ∧ (∀ t ∈ rest', P4' t) ∧
      (∀ t, tot m' t + pend'.count t + rest'.count t = tot m t + pend.count t + rest.count t + l.count t) ∧
      m'.base = m.base ∧ m'.last = m.last ∧ m'.others = m.others := by
  intro l
  induction l with
  | nil => intro m pend rest g hr _; exact ⟨m, pend, rest, rfl, g, hr, fun t => by simp, rfl, rfl, rfl⟩
  | cons t l ih =>
    intro m pend rest g hr h
    obtain ⟨h1, h2, h3, h4, h5⟩ := h t (by simp)
    have hl : ∀ t ∈ l, _ := fun x hx => h x (List.mem_cons_of_mem _ hx)
    rw [List.foldl_cons]
    by_cases hd : Due K cur canc t
    · have e : place3 K cur canc (m, pend, rest) t = (m, pend ++ [t], rest) := by
        unfold place3; dsimp only; rw [if_pos (show canc t.id = true ∨ ms K t.exp ≤ ms K cur from hd)]
      rw [e]
      obtain ⟨m', p', r', q, a, a', b, c, d, f⟩ := ih m (pend ++ [t]) rest (g.pend (h1 hd)) hr hl
      refine ⟨m', p', r', q, a, a', fun x => ?_, c, d, f⟩
      have := b x; rw [List.count_append] at this; rw [count_cons']; omega
    · by_cases hc : ahead K cur t ≤ 1024
      · have e : place3 K cur canc (m, pend, rest) t = ({ m with w1 := m.w1.push (i1 K t) t }, pend, rest) := by
          unfold place3; dsimp only; rw [if_neg (show ¬ (canc t.id = true ∨ ms K t.exp ≤ ms K cur) from hd), if_pos (show ms K t.exp - (ms K cur - ms K cur % 8) ≤ 8 * 128 from hc)]; rfl
        rw [e]
        have hk : i1 K t < 128 := Nat.mod_lt _ (by omega)
        obtain ⟨m', p', r', q, a, a', b, c, d, f⟩ := ih _ pend rest (g.push1 hk (h2 hd hc)) hr hl
        refine ⟨m', p', r', q, a, a', fun x => ?_, c, d, f⟩
        have := b x; rw [tot_push1 hk] at this; rw [count_cons']; omega
      · by_cases hc2 : ahead K cur t ≤ 65536
        · have e : place3 K cur canc (m, pend, rest) t = ({ m with w2 := m.w2.push (i2 K t) t }, pend, rest) := by
            unfold place3; dsimp only; rw [if_neg (show ¬ (canc t.id = true ∨ ms K t.exp ≤ ms K cur) from hd), if_neg (show ¬ ms K t.exp - (ms K cur - ms K cur % 8) ≤ 8 * 128 from hc), if_pos (show ms K t.exp - (ms K cur - ms K cur % 8) ≤ 8 * 128 * 64 from hc2)]; rfl
          rw [e]
          have hk : i2 K t < 64 := Nat.mod_lt _ (by omega)
          obtain ⟨m', p', r', q, a, a', b, c, d, f⟩ := ih _ pend rest (g.push2 hk (h3 hd (by omega) hc2)) hr hl
          refine ⟨m', p', r', q, a, a', fun x => ?_, c, d, f⟩
          have := b x; rw [tot_push2 hk] at this; rw [count_cons']; omega
        · by_cases hc3 : ahead K cur t ≤ 4194304
          · have e : place3 K cur canc (m, pend, rest) t = ({ m with w3 := m.w3.push (i3 K t) t }, pend, rest) := by
              unfold place3; dsimp only; rw [if_neg (show ¬ (canc t.id = true ∨ ms K t.exp ≤ ms K cur) from hd), if_neg (show ¬ ms K t.exp - (ms K cur - ms K cur % 8) ≤ 8 * 128 from hc), if_neg (show ¬ ms K t.exp - (ms K cur - ms K cur % 8) ≤ 8 * 128 * 64 from hc2), if_pos (show ms K t.exp - (ms K cur - ms K cur % 8) ≤ 8 * 128 * 64 * 64 from hc3)]; rfl
            rw [e]
            have hk : i3 K t < 64 := Nat.mod_lt _ (by omega)
            obtain ⟨m', p', r', q, a, a', b, c, d, f⟩ := ih _ pend rest (g.push3 hk (h4 hd (by omega) hc3)) hr hl
            refine ⟨m', p', r', q, a, a', fun x => ?_, c, d, f⟩
            have := b x; rw [tot_push3 hk] at this; rw [count_cons']; omega
          · have e : place3 K cur canc (m, pend, rest) t = (m, pend, rest ++ [t]) := by
              unfold place3; dsimp only; rw [if_neg (show ¬ (canc t.id = true ∨ ms K t.exp ≤ ms K cur) from hd), if_neg (show ¬ ms K t.exp - (ms K cur - ms K cur % 8) ≤ 8 * 128 from hc), if_neg (show ¬ ms K t.exp - (ms K cur - ms K cur % 8) ≤ 8 * 128 * 64 from hc2), if_neg (show ¬ ms K t.exp - (ms K cur - ms K cur % 8) ≤ 8 * 128 * 64 * 64 from hc3)]
            rw [e]
            have hr' : ∀ x ∈ rest ++ [t], P4' x := by
              intro x hx
              rcases List.mem_append.1 hx with hx | hx
              · exact hr x hx
              · rw [List.mem_singleton] at hx; subst hx; exact h5 hd (by omega)
            obtain ⟨m', p', r', q, a, a', b, c, d, f⟩ := ih m pend (rest ++ [t]) g hr' hl
            refine ⟨m', p', r', q, a, a', fun x => ?_, c, d, f⟩
            have := b x; rw [List.count_append] at this; rw [count_cons']; omega

/-- `FetchTimingWheel3`: what it needs to know about the timers of the overflow list -/
theorem fetch3_good {m pend} (g : Good P1 P2 P3 P4 PP m pend)
    (h : ∀ t, P4 t → (Due K cur canc t → PP t) ∧ (¬ Due K cur canc t → ahead K cur t ≤ 1024 → P1 (i1 K t) t) ∧
      (¬ Due K cur canc t → 1024 < ahead K cur t → ahead K cur t ≤ 65536 → P2 (i2 K t) t) ∧
      (¬ Due K cur canc t → 65536 < ahead K cur t → ahead K cur t ≤ 4194304 → P3 (i3 K t) t) ∧
      (¬ Due K cur canc t → 4194304 < ahead K cur t → P4' t)) :
    Good P1 P2 P3 P4' PP (fetch3 K cur canc m pend).1 (fetch3 K cur canc m pend).2 ∧ Keeps m pend [] (fetch3 K cur canc m pend) := by
  have g0 : Good P1 P2 P3 P4 PP { m with others := [] } pend := ⟨g.b1, g.b2, g.b3, g.a1, g.a2, g.a3, by simp, g.ap⟩
  obtain ⟨m', p', r', q, a, a', b, c, d, f⟩ := fold3 (P4' := P4') m.others { m with others := [] } pend [] g0 (by simp)
    (fun t ht => h t (g.a4 t ht))
  unfold fetch3
  rw [q]; dsimp only
  refine ⟨⟨a.b1, a.b2, a.b3, a.a1, a.a2, a.a3, a', a.ap⟩, fun t => ?_, c, d⟩
  have := b t
  unfold tot at this ⊢
  dsimp only at this ⊢ f
  rw [f] at this
  simp only [List.count_nil] at this ⊢
  omega

/-- `FetchTimingWheel2` -/
theorem fetch2_good {m pend j} {m0 : Mgr} {pend0 : List Tm}
    (e : (if j % 64 = 0 then fetch3 K cur canc m pend else (m, pend)) = (m0, pend0))
    (g : Good P1 P2 P3 P4 PP m0 pend0) (hk : Keeps m pend [] (m0, pend0))
    (ht : ∀ k t, P3 k t → k ≠ j % 64 → P3' k t)
    (h : ∀ t, P3 (j % 64) t → (Due K cur canc t → PP t) ∧ (¬ Due K cur canc t → ahead K cur t ≤ 1024 → P1 (i1 K t) t) ∧
      (¬ Due K cur canc t → 1024 < ahead K cur t → ahead K cur t ≤ 65536 → P2 (i2 K t) t) ∧
      (¬ Due K cur canc t → 65536 < ahead K cur t → PP t)) :
    Good P1 P2 P3' P4 PP (fetch2 K cur canc j m pend).1 (fetch2 K cur canc j m pend).2 ∧ Keeps m pend [] (fetch2 K cur canc j m pend) := by
  have g1 : Good P1 P2 P3' P4 PP { m0 with w3 := m0.w3.take (j % 64) } pend0 := by
    refine ⟨g.b1, g.b2, take_bits g.b3, g.a1, g.a2, ?_, g.a4, g.ap⟩
    intro k t hm
    obtain ⟨x, y⟩ := mem_take.1 hm
    exact ht k t (g.a3 k t x) y
  obtain ⟨a, b, c, d⟩ := fold2 (K := K) (cur := cur) (canc := canc) (m0.w3.slot (j % 64)) _ pend0 g1 (fun t hm => h t (g.a3 _ t hm))
  unfold fetch2
  dsimp only
  rw [e]; dsimp only
  obtain ⟨k1, k2, k3⟩ := hk
  dsimp only at k1 k2 k3 c d
  refine ⟨a, fun t => ?_, by rw [c, k2], by rw [d, k3]⟩
  have h1 := b t
  have h2 := k1 t
  have h3 := cntN_take (w := m0.w3) (t := t) (N := 64) (k := j % 64) (Nat.mod_lt _ (by omega))
  have h4 : tot { m0 with w3 := m0.w3.take (j % 64) } t + (m0.w3.slot (j % 64)).count t = tot m0 t := by unfold tot; dsimp only; omega
  omega

/-- `FetchTimingWheel1` -/
theorem fetch1_good {m pend j} {m0 : Mgr} {pend0 : List Tm}
    (e : (if j % 64 = 0 then fetch2 K cur canc (j / 64) m pend else (m, pend)) = (m0, pend0))
    (g : Good P1 P2 P3 P4 PP m0 pend0) (hk : Keeps m pend [] (m0, pend0))
    (ht : ∀ k t, P2 k t → k ≠ j % 64 → P2' k t)
    (h : ∀ t, P2 (j % 64) t → (Due K cur canc t → PP t) ∧ (¬ Due K cur canc t → ahead K cur t ≤ 1024 → P1 (i1 K t) t) ∧
      (¬ Due K cur canc t → 1024 < ahead K cur t → PP t)) :
    Good P1 P2' P3 P4 PP (fetch1 K cur canc j m pend).1 (fetch1 K cur canc j m pend).2 ∧ Keeps m pend [] (fetch1 K cur canc j m pend) := by
  have g1 : Good P1 P2' P3 P4 PP { m0 with w2 := m0.w2.take (j % 64) } pend0 := by
    refine ⟨g.b1, take_bits g.b2, g.b3, g.a1, ?_, g.a3, g.a4, g.ap⟩
    intro k t hm
    obtain ⟨x, y⟩ := mem_take.1 hm
    exact ht k t (g.a2 k t x) y
  obtain ⟨a, b, c, d⟩ := fold1 (K := K) (cur := cur) (canc := canc) (m0.w2.slot (j % 64)) _ pend0 g1 (fun t hm => h t (g.a2 _ t hm))
  unfold fetch1
  dsimp only
  rw [e]; dsimp only
  obtain ⟨k1, k2, k3⟩ := hk
  dsimp only at k1 k2 k3 c d
  refine ⟨a, fun t => ?_, by rw [c, k2], by rw [d, k3]⟩
  have h1 := b t
  have h2 := k1 t
  have h3 := cntN_take (w := m0.w2) (t := t) (N := 64) (k := j % 64) (Nat.mod_lt _ (by omega))
  have h4 : tot { m0 with w2 := m0.w2.take (j % 64) } t + (m0.w2.slot (j % 64)).count t = tot m0 t := by unfold tot; dsimp only; omega
  omega

end

end Verif.TimingWheel
