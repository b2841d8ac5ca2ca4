import Verif.TimingWheel.Late

namespace Verif.TimingWheel

/-- the timer waits in one of the wheels or in the overflow list -/
def Waiting (m : Mgr) (t : Tm) : Prop :=
  (∃ k, t ∈ m.w1.slot k) ∨ (∃ k, t ∈ m.w2.slot k) ∨ (∃ k, t ∈ m.w3.slot k) ∨ t ∈ m.others

/-- how many times `t` waits in the wheels and in the overflow list -/
def waitCount (m : Mgr) (t : Tm) : Nat :=
  ((List.range 128).flatMap m.w1.slot).count t + ((List.range 64).flatMap m.w2.slot).count t +
    ((List.range 64).flatMap m.w3.slot).count t + m.others.count t

theorem cntN_range (w : Wheel) (t : Tm) (N : Nat) : cntN w t N = ((List.range N).flatMap w.slot).count t := by
  induction N with
  | zero => rfl
  | succ N ih => rw [List.range_succ]; simp [cntN, ih]

theorem tot_eq (m : Mgr) (t : Tm) : tot m t = waitCount m t := by
  unfold tot waitCount; simp only [cntN_range]

structure Inv (K : Nat) (w : World) : Prop where
  clock : w.m.base = ms K w.m.last - ms K w.m.last % 8
  good : Good (U1 K w.m.base) (U2 K w.m.base) (U3 K w.m.base) (· ∈ w.far)
    (fun t => w.canc t.id = true ∨ ms K t.exp ≤ ms K w.m.last ∨ t ∈ w.far) w.m w.pend
  count : ∀ t, tot w.m t + w.pend.count t + (w.fired.map Prod.fst).count t = w.set.count t
  fired : ∀ t a, (t, a) ∈ w.fired → w.canc t.id = true ∨ ms K t.exp ≤ ms K a ∨ t ∈ w.far

theorem ms_mono {K a b : Nat} (h : a ≤ b) : ms K a ≤ ms K b := Nat.div_le_div_right h

theorem inv_start (K now : Nat) : Inv K (start K now) := by
  have bits : ∀ N, BitsOk N ({} : Wheel) := fun N => ⟨by intro k; simp, by intro k _; rfl⟩
  refine ⟨rfl, ⟨bits _, bits _, bits _, ?_, ?_, ?_, ?_, ?_⟩, ?_, ?_⟩
  · intro k t h; simp [start, new] at h
  · intro k t h; simp [start, new] at h
  · intro k t h; simp [start, new] at h
  · intro t h; simp [start, new] at h
  · intro t h; simp [start] at h
  · intro t
    have z : ∀ N, cntN ({} : Wheel) t N = 0 := by intro N; induction N with | zero => rfl | succ N ih => simp [cntN, ih]
    simp [start, new, tot, z]
  · intro t a h; simp [start] at h

/-- processing without a new block does nothing but note the time -/
theorem process_cases (K cur canc) (m : Mgr) :
    (cur ≤ m.last ∧ process K cur canc m = (m, [])) ∨
    (m.last < cur ∧ (ms K cur ≤ m.base ∨ m.base / 8 = ms K cur / 8) ∧ process K cur canc m = ({ m with last := cur }, [])) ∨
    (m.last < cur ∧ m.base < ms K cur ∧ m.base / 8 ≠ ms K cur / 8 ∧
      process K cur canc m = ({ (collect K cur canc { m with last := cur }).1 with base := ms K cur - ms K cur % 8 },
        (collect K cur canc { m with last := cur }).2)) := by
  unfold process
  by_cases h : cur ≤ m.last
  · rw [if_pos h]; exact .inl ⟨h, rfl⟩
  · rw [if_neg h]; dsimp only
    by_cases h1 : ms K cur - m.base = 0
    · rw [if_pos h1]; exact .inr (.inl ⟨by omega, .inl (by omega), rfl⟩)
    · rw [if_neg h1, show m.base + (ms K cur - m.base) = ms K cur by omega]
      by_cases h2 : m.base / 8 = ms K cur / 8
      · rw [if_pos h2]; exact .inr (.inl ⟨by omega, .inr h2, rfl⟩)
      · rw [if_neg h2]; exact .inr (.inr ⟨by omega, by omega, h2, rfl⟩)

theorem good_base {P1 P2 P3 P4 PP} {m : Mgr} {pend b} (g : Good P1 P2 P3 P4 PP m pend) : Good P1 P2 P3 P4 PP { m with base := b } pend :=
  ⟨g.b1, g.b2, g.b3, g.a1, g.a2, g.a3, g.a4, g.ap⟩

theorem good_last {P1 P2 P3 P4 PP} {m : Mgr} {pend l} (g : Good P1 P2 P3 P4 PP m pend) : Good P1 P2 P3 P4 PP { m with last := l } pend :=
  ⟨g.b1, g.b2, g.b3, g.a1, g.a2, g.a3, g.a4, g.ap⟩

theorem good_pend {P1 P2 P3 P4 PP PP'} {m : Mgr} {pend pend'} (g : Good P1 P2 P3 P4 PP m pend) (h : ∀ t ∈ pend', PP' t) : Good P1 P2 P3 P4 PP' m pend' :=
  ⟨g.b1, g.b2, g.b3, g.a1, g.a2, g.a3, g.a4, h⟩

theorem inv_step {K w e w'} (i : Inv K w) (s : Step K w e w') : Inv K w' := by
  cases s with
  | cancel n =>
    have mono : ∀ x, w.canc x = true → upd w.canc n true x = true := by
      intro x h; unfold upd; split <;> simp [h]
    exact ⟨i.clock, i.good.mono (fun _ _ h => h) (fun _ _ h => h) (fun _ _ h => h) (fun _ h => h) (fun t h => h.imp (mono _) id),
      i.count, fun t a h => (i.fired t a h).imp (mono _) id⟩
  | fire t l r e =>
    refine ⟨i.clock, good_pend i.good ?_, ?_, ?_⟩
    · intro x hx
      refine i.good.ap x ?_
      rw [e]; rcases List.mem_append.1 hx with h | h
      · exact List.mem_append.2 (.inl h)
      · exact List.mem_append.2 (.inr (List.mem_cons_of_mem _ h))
    · intro x
      have := i.count x
      rw [e] at this
      simp only [List.count_append, List.map_append, List.map_cons, List.map_nil] at this ⊢
      rw [count_cons'] at this
      omega
    · intro x a hx
      rcases List.mem_append.1 hx with h | h
      · exact i.fired x a h
      · simp only [List.mem_singleton, Prod.mk.injEq] at h
        obtain ⟨rfl, rfl⟩ := h
        exact i.good.ap x (by rw [e]; simp)
  | set t =>
    have hcl := i.clock
    unfold World.set'
    unfold setTimer
    by_cases h0 : t.exp ≤ w.m.last
    · simp only [if_pos h0]
      have hle := ms_mono (K := K) h0
      have hfar : ¬ w.m.base + 4194304 < ms K t.exp := by omega
      rw [if_neg hfar]
      refine ⟨hcl, i.good, ?_, ?_⟩
      · intro x
        have := i.count x
        simp only [if_true, List.map_append, List.count_append, List.map_cons, List.map_nil]
        omega
      · intro x a hx
        simp only [if_true] at hx
        rcases List.mem_append.1 hx with h | h
        · exact i.fired x a h
        · simp only [List.mem_singleton, Prod.mk.injEq] at h
          obtain ⟨rfl, rfl⟩ := h
          exact .inr (.inl hle)
    · simp only [if_neg h0]
      have hle := ms_mono (K := K) (Nat.le_of_lt (Nat.lt_of_not_le h0))
      have hE : w.m.base + (ms K t.exp - w.m.base) = ms K t.exp := by omega
      rw [hE]
      have cnt : ∀ (m' : Mgr) , (∀ x, tot m' x = tot w.m x + [t].count x) → ∀ x, tot m' x + w.pend.count x + (w.fired.map Prod.fst).count x = (w.set ++ [t]).count x := by
        intro m' h x
        have := i.count x; have := h x
        rw [List.count_append]; omega
      by_cases h1 : ms K t.exp - w.m.base ≤ 8 * 128
      · simp only [if_pos h1]
        rw [if_neg (show ¬ w.m.base + 4194304 < ms K t.exp by omega)]
        have hk : (ms K t.exp - 1) / 8 % 128 < 128 := Nat.mod_lt _ (by omega)
        exact ⟨hcl, i.good.push1 hk ⟨rfl, by omega⟩, cnt _ (fun x => tot_push1 hk), i.fired⟩
      · simp only [if_neg h1]
        by_cases h2 : ms K t.exp - w.m.base ≤ 8 * 128 * 64
        · simp only [if_pos h2]
          rw [if_neg (show ¬ w.m.base + 4194304 < ms K t.exp by omega)]
          have hk : (ms K t.exp - 1) / 8 / 128 % 64 < 64 := Nat.mod_lt _ (by omega)
          exact ⟨hcl, i.good.push2 hk ⟨rfl, by omega⟩, cnt _ (fun x => tot_push2 hk), i.fired⟩
        · simp only [if_neg h2]
          by_cases h3 : ms K t.exp - w.m.base ≤ 8 * 128 * 64 * 64
          · simp only [if_pos h3]
            rw [if_neg (show ¬ w.m.base + 4194304 < ms K t.exp by omega)]
            have hk : (ms K t.exp - 1) / 8 / 128 / 64 % 64 < 64 := Nat.mod_lt _ (by omega)
            exact ⟨hcl, i.good.push3 hk ⟨rfl, by omega⟩, cnt _ (fun x => tot_push3 hk), i.fired⟩
          · simp only [if_neg h3]
            rw [if_pos (show w.m.base + 4194304 < ms K t.exp by omega)]
            have mono : ∀ x, x ∈ w.far → x ∈ w.far ++ [t] := fun x h => List.mem_append.2 (.inl h)
            have g := i.good.mono (P4' := (· ∈ w.far ++ [t])) (fun _ _ h => h) (fun _ _ h => h) (fun _ _ h => h) mono
              (PP' := fun x => w.canc x.id = true ∨ ms K x.exp ≤ ms K w.m.last ∨ x ∈ w.far ++ [t])
              (fun x h => h.imp id (fun h => h.imp id (mono x)))
            refine ⟨hcl, ⟨g.b1, g.b2, g.b3, g.a1, g.a2, g.a3, ?_, g.ap⟩, cnt _ ?_, ?_⟩
            · intro x hx
              rcases List.mem_append.1 hx with h | h
              · exact mono x (i.good.a4 x h)
              · exact List.mem_append.2 (.inr h)
            · intro x; unfold tot; dsimp only; rw [List.count_append]; omega
            · intro x a h; exact (i.fired x a h).imp id (fun h => h.imp id (mono x))
  | process cur =>
    have hcl := i.clock
    unfold World.process'
    rcases process_cases K cur w.canc w.m with ⟨_, e⟩ | ⟨hlt, hsame, e⟩ | ⟨hlt, hb, hne, e⟩
    · rw [e]; dsimp only; rw [List.append_nil]; exact i
    · rw [e]; dsimp only; rw [List.append_nil]
      have hle := ms_mono (K := K) (Nat.le_of_lt hlt)
      refine ⟨?_, ?_, i.count, i.fired⟩
      · dsimp only; generalize ms K cur = u at *; generalize ms K w.m.last = v at *; omega
      · exact (good_last i.good).mono (fun _ _ h => h) (fun _ _ h => h) (fun _ _ h => h) (fun _ h => h)
          (fun t h => h.imp id (fun h => h.imp (fun h => Nat.le_trans h hle) id))
    · rw [e]; dsimp only
      have hle := ms_mono (K := K) (Nat.le_of_lt hlt)
      have g0 : Good (U1 K w.m.base) (U2 K w.m.base) (U3 K w.m.base) (· ∈ w.far) (fun _ => True) { w.m with last := cur } [] :=
        good_last (good_pend i.good (fun _ _ => trivial))
      have hb8 : w.m.base % 8 = 0 := by omega
      obtain ⟨g, k1, k2, k3⟩ := collect_V (F := (· ∈ w.far)) (canc := w.canc) (c := ms K cur - ms K cur % 8) rfl
        (show ({ w.m with last := cur } : Mgr).base % 8 = 0 from hb8) (Nat.le_of_lt hb) hne g0
      generalize collect K cur w.canc { w.m with last := cur } = r at *
      obtain ⟨m', p'⟩ := r
      dsimp only at *
      have g2 := good_base (b := ms K cur - ms K cur % 8) (g.mono (fun _ _ h => h) (fun _ _ h => h.1) (fun _ _ h => h.1) (fun _ h => h) (fun _ h => h))
      refine ⟨by dsimp only; rw [k3], ?_, ?_, i.fired⟩
      · refine good_pend g2 ?_
        intro t ht
        dsimp only; rw [k3]
        rcases List.mem_append.1 ht with h | h
        · exact (i.good.ap t h).imp id (fun h => h.imp (fun h => Nat.le_trans h hle) id)
        · exact g.ap t h
      · intro t
        have h1 := i.count t
        have h2 := k1 t
        simp only [List.count_nil] at h2
        have h3 : tot { w.m with last := cur } t = tot w.m t := rfl
        have h4 : tot { m' with base := ms K cur - ms K cur % 8 } t = tot m' t := rfl
        rw [h3] at h2
        show _ + _ + (w.fired.map Prod.fst).count t = w.set.count t
        rw [List.count_append, h4]
        omega

theorem reach_inv {K ok now w} (r : Reach K ok (start K now) w) : Inv K w := by
  induction r with
  | refl => exact inv_start K now
  | step _ _ s ih => exact inv_step ih s

/-! ### C43 -/

/-- **C43.**  In every history (any times, any nesting of callbacks, cancellations), each timer is at every moment exactly as often in the wheels, in the
list being dispatched, and in the log of dispatches, as it was set: none is lost and none dispatched twice. -/
theorem C43_exactly_once {K ok now w} (r : Reach K ok (start K now) w) (t : Tm) :
    waitCount w.m t + w.pend.count t + (w.fired.map Prod.fst).count t = w.set.count t := by
  rw [← tot_eq]; exact (reach_inv r).count t

/-! ### C40 -/

/-- **C40 (partial).**  No timer is dispatched before its expiry, in milliseconds: every dispatched timer was cancelled, had expired, or had been set more than
2^22 ms (70 minutes) ahead.  For the latter the claim fails (`C40_fails`), and below a millisecond too (`C40_tick_fails`). -/
theorem C40_never_early_partial {K ok now w t a} (r : Reach K ok (start K now) w) (h : (t, a) ∈ w.fired) :
    w.canc t.id = true ∨ ms K t.exp ≤ ms K a ∨ t ∈ w.far := (reach_inv r).fired t a h

/-- the log `far` holds only timers that were set more than 2^22 ms ahead of the base, which is at most 7 ms before the last processing -/
theorem far_meaning {K ok now w w' e t} (r : Reach K ok (start K now) w) (s : Step K w e w') (h : t ∈ w'.far) :
    t ∈ w.far ∨ (e = .set t ∧ ms K w.m.last + 4194304 < ms K t.exp + 8) := by
  have hcl := (reach_inv r).clock
  cases s with
  | cancel => exact .inl h
  | process => exact .inl h
  | fire => exact .inl h
  | set x =>
    simp only [World.set'] at h
    split at h
    · rcases List.mem_append.1 h with h | h
      · exact .inl h
      · rw [List.mem_singleton] at h; subst h
        exact .inr ⟨rfl, by omega⟩
    · exact .inl h

/-! ### C41 -/

/-- events that avoid the two causes of late timers: a cascade missed by `ProcessingTimerTasks` (see `Clean`), and a timer that expires in the very millisecond of the
wheel's base -/
def Fine (K : Nat) (w : World) : Ev → Prop
  | .set t => w.m.last < t.exp → w.m.base < ms K t.exp
  | .process cur => Clean w.m.base (ms K cur)
  | _ => True

def Low (K : Nat) (m : Mgr) : Prop := Good (L1 K m.base) (L2 K m.base) (L3 K m.base) (L4 K m.base) (fun _ => True) m []

theorem low_step {K w e w'} (i : Inv K w) (l : Low K w.m) (hf : Fine K w e) (s : Step K w e w') : Low K w'.m := by
  cases s with
  | cancel => exact l
  | fire => exact l
  | set t =>
    have hcl := i.clock
    unfold World.set' setTimer
    by_cases h0 : t.exp ≤ w.m.last
    · simp only [if_pos h0]; exact l
    · simp only [if_neg h0]
      have hlt : w.m.base < ms K t.exp := hf (by omega)
      have hE : w.m.base + (ms K t.exp - w.m.base) = ms K t.exp := by omega
      rw [hE]
      unfold Low at *
      generalize hx : ms K t.exp = E at *
      by_cases h1 : E - w.m.base ≤ 8 * 128
      · simp only [if_pos h1]
        exact l.push1 (Nat.mod_lt _ (by omega)) ⟨by unfold i1; rw [hx], by omega⟩
      · simp only [if_neg h1]
        by_cases h2 : E - w.m.base ≤ 8 * 128 * 64
        · simp only [if_pos h2]
          exact l.push2 (Nat.mod_lt _ (by omega)) ⟨by unfold i2; rw [hx], by rw [hx]; omega⟩
        · simp only [if_neg h2]
          by_cases h3 : E - w.m.base ≤ 8 * 128 * 64 * 64
          · simp only [if_pos h3]
            exact l.push3 (Nat.mod_lt _ (by omega)) ⟨by unfold i3; rw [hx], by rw [hx]; omega⟩
          · simp only [if_neg h3]
            refine ⟨l.b1, l.b2, l.b3, l.a1, l.a2, l.a3, ?_, l.ap⟩
            intro x hxm
            rcases List.mem_append.1 hxm with h | h
            · exact l.a4 x h
            · rw [List.mem_singleton] at h; subst h
              unfold L4; rw [hx]; omega
  | process cur =>
    have hcl := i.clock
    unfold World.process'
    rcases process_cases K cur w.canc w.m with ⟨_, e⟩ | ⟨hlt, hsame, e⟩ | ⟨hlt, hb, hne, e⟩
    · rw [e]; exact l
    · rw [e]; exact good_last l
    · rw [e]; dsimp only
      have hb8 : w.m.base % 8 = 0 := by omega
      have g := collect_L (canc := w.canc) (c := ms K cur - ms K cur % 8) (m := { w.m with last := cur }) rfl hb8 (Nat.le_of_lt hb) hne hf (good_last l)
      exact good_pend (good_base g) (by intro t h; cases h)

theorem reach_low {K now w} (r : Reach K (Fine K) (start K now) w) : Inv K w ∧ Low K w.m := by
  induction r with
  | refl =>
    refine ⟨inv_start K now, ?_⟩
    have g := (inv_start K now).good
    refine ⟨g.b1, g.b2, g.b3, ?_, ?_, ?_, ?_, ?_⟩
    · intro k t h; simp [start, new] at h
    · intro k t h; simp [start, new] at h
    · intro k t h; simp [start, new] at h
    · intro t h; simp [start, new] at h
    · intro t h; cases h
  | step _ hok s ih => exact ⟨inv_step ih.1 s, low_step ih.1 ih.2 hok s⟩

theorem low_gt {K m t} (l : Low K m) (h : Waiting m t) : m.base < ms K t.exp := by
  rcases h with ⟨k, h⟩ | ⟨k, h⟩ | ⟨k, h⟩ | h
  · exact (l.a1 k t h).2
  · have := (l.a2 k t h).2; omega
  · have := (l.a3 k t h).2; omega
  · have := l.a4 t h; unfold L4 at this; omega

/-- **C41 (partial).**  A timer that is still waiting was, at the last processing, less than one tick (8 ms) past its expiry; so a timer processed at least a tick after
its expiry is dispatched by then (with `C43_exactly_once`).  For histories whose calls are `Fine`; the others are refuted by `C41_cascade_fails` and
`C41_base_fails`. -/
theorem C41_on_time_partial {K now w t} (r : Reach K (Fine K) (start K now) w) (h : Waiting w.m t) : ms K w.m.last < ms K t.exp + 8 := by
  obtain ⟨i, l⟩ := reach_low r
  have := low_gt l h
  have := i.clock
  omega

/-- calls at most a second apart are all clean -/
theorem clean_of_often {b u} (h : u - b < 1024) : Clean b u := ⟨fun h1 => by omega, fun h1 => by omega⟩

/-! ### C42 -/

theorem isEmpty_false {bit N} (h : (!isEmpty bit N) = true) : ∃ k, k < N ∧ bit k = true := by
  refine Classical.byContradiction fun hn => ?_
  have : isEmpty bit N = true := by
    unfold isEmpty
    rw [List.all_eq_true]
    intro k hk
    have : bit k = false := by
      cases hb : bit k with
      | false => rfl
      | true => exact absurd ⟨k, List.mem_range.1 hk, hb⟩ hn
    simp [this]
  rw [this] at h; cases h

theorem isEmpty_true {bit N} (h : ¬ (!isEmpty bit N) = true) : ∀ k, k < N → bit k = false := by
  intro k hk
  have : isEmpty bit N = true := by simpa using h
  unfold isEmpty at this
  rw [List.all_eq_true] at this
  simpa using this k (List.mem_range.2 hk)

theorem bit_of_mem {N w k} {t : Tm} (b : BitsOk N w) (h : t ∈ w.slot k) : k < N ∧ w.bit k = true := by
  constructor
  · refine Classical.byContradiction fun hn => ?_
    rw [b.2 k (by omega)] at h; cases h
  · cases hb : w.bit k with
    | true => rfl
    | false => rw [(b.1 k).1 hb] at h; cases h

/-- **C42 (partial).**  The wake-up time is never later than the first tick (multiple of 8 ms) at or after the expiry of any waiting timer, and no wake-up is
requested only if no timer waits.  Required: `Fine` calls, and that not only the overflow list is occupied (`C42_fails` otherwise). -/
theorem C42_no_oversleep_partial {K now w} (r : Reach K (Fine K) (start K now) w)
    (ho : w.m.others = [] ∨ ∃ t, Waiting w.m t ∧ t ∉ w.m.others) :
    match wakeup w.m with
    | none => ∀ t, ¬ Waiting w.m t
    | some T => ∀ t, Waiting w.m t → ∀ D, D % 8 = 0 → ms K t.exp ≤ D → T ≤ D := by
  obtain ⟨i, l⟩ := reach_low r
  have hcl := i.clock
  have hb8 : w.m.base % 8 = 0 := by omega
  have i1' : ∀ k t, t ∈ w.m.w1.slot k → k < 128 ∧ w.m.w1.bit k = true := fun k t h => bit_of_mem l.b1 h
  have i2' : ∀ k t, t ∈ w.m.w2.slot k → k < 64 ∧ w.m.w2.bit k = true := fun k t h => bit_of_mem l.b2 h
  have i3' : ∀ k t, t ∈ w.m.w3.slot k → k < 64 ∧ w.m.w3.bit k = true := fun k t h => bit_of_mem l.b3 h
  unfold wakeup
  dsimp only
  by_cases h1 : (!isEmpty w.m.w1.bit 128) = true
  · rw [if_pos h1]
    have later : ∀ T, T ≤ w.m.base + (128 - w.m.base / 8 % 128) * 8 → (∀ k t, t ∈ w.m.w1.slot k → ∀ D, D % 8 = 0 → ms K t.exp ≤ D → T ≤ D) →
        ∀ t, Waiting w.m t → ∀ D, D % 8 = 0 → ms K t.exp ≤ D → T ≤ D := by
      intro T hT hw t ht D hD hE
      rcases ht with ⟨k, h⟩ | ⟨k, h⟩ | ⟨k, h⟩ | h
      · exact hw k t h D hD hE
      · have := (l.a2 k t h).2; omega
      · have := (l.a3 k t h).2; omega
      · have := l.a4 t h; unfold L4 at this; omega
    cases hf : find w.m.w1.bit 128 (w.m.base / 8 % 128) with
    | none =>
      have fn := find_none hf
      refine later _ (Nat.le_refl _) ?_
      intro k t h D hD hE
      obtain ⟨x, y⟩ := l.a1 k t h
      have hk : k < w.m.base / 8 % 128 := by
        refine Classical.byContradiction fun hn => ?_
        have := fn k (by omega) (i1' k t h).1
        rw [(i1' k t h).2] at this; cases this
      unfold i1 at x
      generalize ms K t.exp = E at *
      omega
    | some f =>
      obtain ⟨f1, _, f3⟩ := find_some hf
      have fl := find_least hf
      refine later _ (by omega) ?_
      intro k t h D hD hE
      obtain ⟨x, y⟩ := l.a1 k t h
      have hk : k < w.m.base / 8 % 128 ∨ f ≤ k := by
        refine Classical.byContradiction fun hn => ?_
        have := fl k (by omega) (by omega)
        rw [(i1' k t h).2] at this; cases this
      unfold i1 at x
      generalize ms K t.exp = E at *
      omega
  · rw [if_neg h1]
    have e1 : ∀ k t, ¬ t ∈ w.m.w1.slot k := by
      intro k t h
      have := isEmpty_true h1 k (i1' k t h).1
      rw [(i1' k t h).2] at this; cases this
    by_cases h2 : (!isEmpty w.m.w2.bit 64) = true
    · rw [if_pos h2]
      have later : ∀ T, T ≤ w.m.base - w.m.base % 65536 + 65536 → (∀ k t, t ∈ w.m.w2.slot k → ∀ D, D % 8 = 0 → ms K t.exp ≤ D → T ≤ D) →
          ∀ t, Waiting w.m t → ∀ D, D % 8 = 0 → ms K t.exp ≤ D → T ≤ D := by
        intro T hT hw t ht D hD hE
        rcases ht with ⟨k, h⟩ | ⟨k, h⟩ | ⟨k, h⟩ | h
        · exact absurd h (e1 k t)
        · exact hw k t h D hD hE
        · have := (l.a3 k t h).2; omega
        · have := l.a4 t h; unfold L4 at this; omega
      cases hf : find w.m.w2.bit 64 ((w.m.base / 8 / 128 + 1) % 64) with
      | none =>
        have fn := find_none hf
        refine later _ (by omega) ?_
        intro k t h D hD hE
        obtain ⟨x, y⟩ := l.a2 k t h
        have hk : k < (w.m.base / 8 / 128 + 1) % 64 := by
          refine Classical.byContradiction fun hn => ?_
          have := fn k (by omega) (i2' k t h).1
          rw [(i2' k t h).2] at this; cases this
        unfold i2 at x
        generalize ms K t.exp = E at *
        omega
      | some f =>
        obtain ⟨f1, _, f3⟩ := find_some hf
        have fl := find_least hf
        dsimp only
        by_cases hf0 : 0 < f
        · rw [if_pos hf0]
          refine later _ (by omega) ?_
          intro k t h D hD hE
          obtain ⟨x, y⟩ := l.a2 k t h
          have hk : k < (w.m.base / 8 / 128 + 1) % 64 ∨ f ≤ k := by
            refine Classical.byContradiction fun hn => ?_
            have := fl k (by omega) (by omega)
            rw [(i2' k t h).2] at this; cases this
          unfold i2 at x
          generalize ms K t.exp = E at *
          omega
        · rw [if_neg hf0]
          refine later _ (by omega) ?_
          intro k t h D hD hE
          obtain ⟨x, y⟩ := l.a2 k t h
          unfold i2 at x
          generalize ms K t.exp = E at *
          omega
    · rw [if_neg h2]
      have e2 : ∀ k t, ¬ t ∈ w.m.w2.slot k := by
        intro k t h
        have := isEmpty_true h2 k (i2' k t h).1
        rw [(i2' k t h).2] at this; cases this
      by_cases h3 : (!isEmpty w.m.w3.bit 64) = true
      · rw [if_pos h3]
        have later : ∀ T, T ≤ w.m.base - w.m.base % 4194304 + 4194304 → (∀ k t, t ∈ w.m.w3.slot k → ∀ D, D % 8 = 0 → ms K t.exp ≤ D → T ≤ D) →
            ∀ t, Waiting w.m t → ∀ D, D % 8 = 0 → ms K t.exp ≤ D → T ≤ D := by
          intro T hT hw t ht D hD hE
          rcases ht with ⟨k, h⟩ | ⟨k, h⟩ | ⟨k, h⟩ | h
          · exact absurd h (e1 k t)
          · exact absurd h (e2 k t)
          · exact hw k t h D hD hE
          · have := l.a4 t h; unfold L4 at this; omega
        cases hf : find w.m.w3.bit 64 ((w.m.base / 8 / 128 / 64 + 1) % 64) with
        | none =>
          have fn := find_none hf
          refine later _ (by omega) ?_
          intro k t h D hD hE
          obtain ⟨x, y⟩ := l.a3 k t h
          have hk : k < (w.m.base / 8 / 128 / 64 + 1) % 64 := by
            refine Classical.byContradiction fun hn => ?_
            have := fn k (by omega) (i3' k t h).1
            rw [(i3' k t h).2] at this; cases this
          unfold i3 at x
          generalize ms K t.exp = E at *
          omega
        | some f =>
          obtain ⟨f1, _, f3⟩ := find_some hf
          have fl := find_least hf
          refine later _ (by omega) ?_
          intro k t h D hD hE
          obtain ⟨x, y⟩ := l.a3 k t h
          have hk : k < (w.m.base / 8 / 128 / 64 + 1) % 64 ∨ f ≤ k := by
            refine Classical.byContradiction fun hn => ?_
            have := fl k (by omega) (by omega)
            rw [(i3' k t h).2] at this; cases this
          unfold i3 at x
          generalize ms K t.exp = E at *
          omega
      · rw [if_neg h3]
        have e3 : ∀ k t, ¬ t ∈ w.m.w3.slot k := by
          intro k t h
          have := isEmpty_true h3 k (i3' k t h).1
          rw [(i3' k t h).2] at this; cases this
        have ho' : w.m.others = [] := by
          rcases ho with h | ⟨t, h, hn⟩
          · exact h
          · exfalso
            rcases h with ⟨k, h⟩ | ⟨k, h⟩ | ⟨k, h⟩ | h
            · exact e1 k t h
            · exact e2 k t h
            · exact e3 k t h
            · exact hn h
        rw [ho']
        simp only [List.isEmpty_nil, if_true]
        intro t ht
        rcases ht with ⟨k, h⟩ | ⟨k, h⟩ | ⟨k, h⟩ | h
        · exact e1 k t h
        · exact e2 k t h
        · exact e3 k t h
        · rw [ho'] at h; cases h

end Verif.TimingWheel
