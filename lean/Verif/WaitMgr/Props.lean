import Verif.WaitMgr.Lemmas
/-!
# C54 – wait registrations stay paired with their handles
-/
namespace Verif.WaitMgr

structure Good (hd : Nat → Nat) (s : St) : Prop where
  inv : Inv hd s
  pt : ∀ x v, Paired s x v → (s.ws v).alive = true → (s.ws v).status ≠ .completed ∧ ((s.ws v).status = .started → (s.ws v).tp = true)
  del : ∀ y ∈ s.delivered, hd y.1 = y.2

/-- the assumption on histories: no event registers a wait for a handle on which another wait is still pending -/
def Allowed (hd : Nat → Nat) (s : St) : Ev → Prop
  | .set w _ => ∀ v, Paired s (hd w) v → v ≠ w → (s.ws v).alive = true → (s.ws v).status ≠ .started
  | _ => True

def AllowedRun (hd : Nat → Nat) (s : St) : List Ev → Prop
  | [] => True
  | e :: es => Allowed hd s e ∧ ∀ s', step hd s e = some s' → AllowedRun hd s' es

theorem paired_hd {hd : Nat → Nat} {s : St} (c : Core hd s) {x v : Nat} (h : Paired s x v) : hd v = x ∧ x ≠ 0 := by
  obtain ⟨i, hi, h1, h2⟩ := h
  obtain ⟨w, h3, h4⟩ := c.slot i hi
  rw [h2] at h3; cases h3
  exact ⟨by rw [h4, h1], by rw [← h1]; exact c.nz i hi⟩

theorem paired_unique {hd : Nat → Nat} {s : St} (c : Core hd s) {x v v' : Nat} (h : Paired s x v) (h' : Paired s x v') : v = v' := by
  obtain ⟨i, hi, h1, h2⟩ := h
  obtain ⟨j, hj, h3, h4⟩ := h'
  have : i = j := c.inj i hi j hj (by omega)
  subst this
  rw [h2] at h4; cases h4; rfl

/-- a wait's own fields change, the arrays do not -/
theorem good_setW {hd : Nat → Nat} {s : St} (g : Good hd s) {w : Nat} {x : W}
    (h1 : x.alive = true → x.tp = true → x.status = .started → Paired s (hd w) w) (h2 : x.status = .completed → x.tp = false ∨ x.alive = false)
    (h3 : ∀ y, Paired s y w → x.alive = true → x.status ≠ .completed ∧ (x.status = .started → x.tp = true)) : Good hd (setW s w x) := by
  refine ⟨⟨core_congr g.inv.core rfl rfl rfl, ?_, ?_, g.inv.pend⟩, ?_, g.del⟩
  · intro v ha ht hs
    simp only [setW, upd] at ha ht hs
    show Paired s (hd v) v
    by_cases e : v = w
    · rw [if_pos e] at ha ht hs; rw [e]; exact h1 ha ht hs
    · rw [if_neg e] at ha ht hs; exact g.inv.tp v ha ht hs
  · intro v hs
    simp only [setW, upd] at hs ⊢
    by_cases e : v = w
    · rw [if_pos e] at hs ⊢; exact h2 hs
    · rw [if_neg e] at hs ⊢; exact g.inv.tpc v hs
  · intro y v hp ha
    simp only [setW, upd] at ha ⊢
    have hp : Paired s y v := hp
    by_cases e : v = w
    · rw [if_pos e] at ha ⊢; rw [e] at hp; exact h3 y hp ha
    · rw [if_neg e] at ha ⊢; exact g.pt y v hp ha

theorem good_removeAt {hd : Nat → Nat} {s : St} (g : Good hd s) {i : Nat} (hi : i < s.cnt) : Good hd (removeAt s i) := by
  obtain ⟨e1, e2, e3, e4⟩ := removeAt_ws hi
  refine ⟨removeAt_inv g.inv hi, ?_, by rw [e4]; exact g.del⟩
  intro x v hp ha
  rw [removeAt_paired g.inv.core hi] at hp
  rw [e1, wsAt_alive] at ha
  rw [e1, wsAt_status]
  obtain ⟨h1, h2⟩ := g.pt x v hp.1 ha
  refine ⟨h1, fun h => ?_⟩
  have hne : get s i ≠ some v := by
    intro e
    obtain ⟨e, _⟩ := get_eq e
    have := (paired_hd g.inv.core ⟨i, hi, rfl, e⟩).1
    exact hp.2 (by rw [← (paired_hd g.inv.core hp.1).1, this])
  unfold clearTp
  rw [if_neg hne]; exact h2 h

theorem find_paired {hd : Nat → Nat} {s : St} (c : Core hd s) {x v : Nat} (h : Paired s x v) : find s x < s.cnt ∧ s.h (find s x) = x ∧ s.p (find s x) = some v := by
  have hx := (paired_hd c h).2
  obtain ⟨i, hi, h1, h2⟩ := h
  rcases find_spec c hx with ⟨j, hj, h3, h4, _⟩ | ⟨h3, _⟩
  · have : j = i := c.inj j hj i hi (by omega)
    subst this
    rw [h4]; exact ⟨hj, h3, h2⟩
  · exact absurd h1 (h3 i hi)

theorem paired_setW (s : St) (w : Nat) (y : W) (x v : Nat) : Paired (setW s w y) x v ↔ Paired s x v := Iff.rfl

/-- `Cancel` on the runner's thread: it succeeds exactly for a pending wait, which is then not registered any more; all others stay. -/
theorem cancel_good {hd : Nat → Nat} {s : St} (g : Good hd s) {w : Nat} (ha : (s.ws w).alive = true) :
    Good hd (cancel hd s w).1 ∧ ((cancel hd s w).2 = true ↔ (s.ws w).status = .started) ∧
    (∀ x v, Paired (cancel hd s w).1 x v ↔ Paired s x v ∧ ((s.ws w).status = .started → v ≠ w)) := by
  unfold cancel
  by_cases hs : (s.ws w).status = .started
  · rw [if_pos hs]
    have g1 : Good hd (setW s w { s.ws w with status := .canceled, tp := false }) :=
      good_setW g (fun _ h => by cases h) (fun h => by cases h) (fun _ _ _ => ⟨(by intro h; cases h), (by intro h; cases h)⟩)
    cases ht : (s.ws w).tp with
    | false =>
      dsimp only
      rw [if_neg (by decide)]
      refine ⟨g1, by simp [hs], fun x v => ?_⟩
      rw [paired_setW]
      refine ⟨fun h => ⟨h, fun _ e => ?_⟩, fun h => h.1⟩
      subst e
      have := (g.pt x v h ha).2 hs
      rw [ht] at this; cases this
    | true =>
      dsimp only
      rw [if_pos rfl]
      have hp := g.inv.tp w ha ht hs
      have hp1 : Paired (setW s w { s.ws w with status := .canceled, tp := false }) (hd w) w := hp
      obtain ⟨f1, f2, f3⟩ := find_paired g1.inv.core hp1
      refine ⟨good_removeAt g1 f1, by simp [hs], fun x v => ?_⟩
      rw [removeAt_paired g1.inv.core f1, f2, paired_setW]
      refine and_congr_right fun h => ?_
      refine ⟨fun hx _ e => ?_, fun hv hx => ?_⟩
      · subst e; exact hx (paired_hd g.inv.core h).1.symm
      · subst hx; exact hv hs (paired_unique g.inv.core h hp)
  · rw [if_neg hs]
    exact ⟨g, by simp [hs], fun x v => by simp [hs]⟩

/-- `SetWaitInternal` -/
theorem set_good {hd : Nat → Nat} {s : St} (g : Good hd s) {w : Nat} {raced : Bool} (ha : (s.ws w).alive = true) (hc : (s.ws w).status ≠ .completed)
    (hal : Allowed hd s (.set w raced)) : Good hd (set hd s w raced).1 ∧
    ((set hd s w raced).2 = .ok → ∀ x v, Paired (set hd s w raced).1 x v ↔ if x = hd w then v = w else Paired s x v) ∧
    ((set hd s w raced).2 ≠ .ok → (set hd s w raced).1 = s) ∧
    ((set hd s w raced).2 = .cancelled → (s.ws w).status = .canceled) ∧
    ((set hd s w raced).2 = .invalidArg → hd w = 0) ∧
    ((set hd s w raced).2 = .notImpl → s.cnt = 63 ∧ ∀ v, ¬ Paired s (hd w) v) := by
  unfold set
  by_cases h0 : (s.ws w).status = .canceled ∧ raced = false
  · rw [if_pos h0]; exact ⟨g, by simp, by simp, fun _ => h0.1, by simp, by simp⟩
  rw [if_neg h0]
  unfold setWait
  by_cases hz : hd w = 0
  · rw [if_pos hz]; exact ⟨g, by simp, by simp, by simp, fun _ => hz, by simp⟩
  rw [if_neg hz]
  dsimp only
  have c := g.inv.core
  rcases find_spec c hz with ⟨j, hj, h3, h4, h5⟩ | ⟨h3, h4⟩
  · rw [if_pos h5]
    obtain ⟨v0, hv0, hv1⟩ := c.slot j hj
    have hpv : Paired s (hd w) v0 := ⟨j, hj, h3, hv0⟩
    -- the wait in the slot is replaced
    have key : ¬ ((s.ws v0).alive = true ∧ v0 = w) → (v0 ≠ w → (s.ws v0).alive = true → (s.ws v0).status ≠ .started) →
        Good hd { setW s w { s.ws w with tp := true } with p := upd s.p j (some w) } ∧
        ∀ x v, Paired { setW s w { s.ws w with tp := true } with p := upd s.p j (some w) } x v ↔ if x = hd w then v = w else Paired s x v := by
      intro hn hst
      have hvw : v0 ≠ w := fun e => hn ⟨by rw [e]; exact ha, e⟩
      have hpa : ∀ x v, Paired { setW s w { s.ws w with tp := true } with p := upd s.p j (some w) } x v ↔ if x = hd w then v = w else Paired s x v := by
        intro x v
        by_cases hx : x = hd w
        · rw [if_pos hx]
          constructor
          · rintro ⟨i, hi, a, b⟩
            have hi : i < s.cnt := hi
            have a : s.h i = x := a
            have : i = j := c.inj i hi j hj (by omega)
            subst this
            simp [upd] at b; exact b.symm
          · intro e; exact ⟨j, hj, by rw [hx]; exact h3, by simp [upd, e]⟩
        · rw [if_neg hx]
          constructor
          · rintro ⟨i, hi, a, b⟩
            have a : s.h i = x := a
            have hij : i ≠ j := fun e => hx (by rw [← a, e, h3])
            exact ⟨i, hi, a, by simpa [upd, hij] using b⟩
          · rintro ⟨i, hi, a, b⟩
            have hij : i ≠ j := fun e => hx (by rw [← a, e, h3])
            exact ⟨i, hi, a, by simpa [upd, hij] using b⟩
      refine ⟨⟨⟨⟨c.cap, ?_, ?_, c.nz, c.inj⟩, ?_, ?_, g.inv.pend⟩, ?_, g.del⟩, hpa⟩
      · intro i hi
        have hi : s.cnt ≤ i := hi
        have hij : i ≠ j := by omega
        exact ⟨(c.out i hi).1, by simpa [upd, hij] using (c.out i hi).2⟩
      · intro i hi
        by_cases e : i = j
        · exact ⟨w, by simp [upd, e], by rw [e]; exact h3.symm⟩
        · obtain ⟨v, a, b⟩ := c.slot i hi
          exact ⟨v, by simpa [upd, e] using a, b⟩
      · intro v hav ht hs
        rw [hpa]
        by_cases hx : hd v = hd w
        · rw [if_pos hx]
          refine Classical.byContradiction fun e => ?_
          simp only [setW, upd, if_neg e] at hav ht hs
          have hp := g.inv.tp v hav ht hs
          rw [hx] at hp
          have := paired_unique c hp hpv
          subst this
          exact hst e hav hs
        · rw [if_neg hx]
          have e : v ≠ w := fun e => hx (by rw [e])
          simp only [setW, upd, if_neg e] at hav ht hs
          exact g.inv.tp v hav ht hs
      · intro v hs
        by_cases e : v = w
        · subst e; simp [setW, upd] at hs; exact absurd hs hc
        · simp only [setW, upd, if_neg e] at hs ⊢; exact g.inv.tpc v hs
      · intro x v hp hav
        rw [hpa] at hp
        by_cases e : v = w
        · subst e; simp [setW, upd, hc]
        · simp only [setW, upd, if_neg e] at hav ⊢
          by_cases hx : x = hd w
          · rw [if_pos hx] at hp; exact absurd hp e
          · rw [if_neg hx] at hp; exact g.pt x v hp hav
    have gw : get (setW s w { s.ws w with tp := true }) (find s (hd w)) = if (s.ws v0).alive = true then some v0 else none := by
      rw [h4]
      have e1 : ((setW s w { s.ws w with tp := true }).ws v0).alive = (s.ws v0).alive := by
        simp only [setW, upd]
        by_cases e : v0 = w
        · rw [if_pos e, e]
        · rw [if_neg e]
      have e2 : (setW s w { s.ws w with tp := true }).p j = some v0 := hv0
      unfold get
      rw [e2]
      dsimp only
      simp only [e1]
    by_cases hal0 : (s.ws v0).alive = true
    · rw [gw, if_pos hal0]
      dsimp only
      by_cases e : v0 = w
      · rw [if_pos e]
        subst e
        have : setW s v0 { s.ws v0 with tp := true } = { setW s v0 { s.ws v0 with tp := true } with p := s.p } := rfl
        refine ⟨good_setW g (fun _ _ _ => hpv) (fun h => absurd h hc) (fun y hy _ => ⟨hc, fun _ => rfl⟩), fun _ x v => ?_, by simp, by simp, by simp, by simp⟩
        rw [paired_setW]
        by_cases hx : x = hd v0
        · rw [if_pos hx, hx]; exact ⟨fun h => paired_unique c h hpv, fun h => by rw [h]; exact hpv⟩
        · rw [if_neg hx]
      · rw [if_neg e]
        have hst := hal v0 hpv e hal0
        have hcn : cancel hd (setW s w { s.ws w with tp := true }) v0 = (setW s w { s.ws w with tp := true }, false) := by
          unfold cancel
          rw [if_neg]
          simp only [setW, upd, if_neg e]; exact hst
        rw [hcn]
        dsimp only
        rw [h4]
        obtain ⟨k1, k2⟩ := key (fun h => e h.2) (fun _ _ => hst)
        exact ⟨k1, fun _ => k2, by simp, by simp, by simp, by simp⟩
    · rw [gw, if_neg hal0]
      dsimp only
      rw [h4]
      obtain ⟨k1, k2⟩ := key (fun h => hal0 h.1) (fun _ h => absurd h hal0)
      exact ⟨k1, fun _ => k2, by simp, by simp, by simp, by simp⟩
  · rw [if_neg (by rw [h4]; simp)]
    have hno : ∀ v, ¬ Paired s (hd w) v := fun v ⟨i, hi, a, _⟩ => h3 i hi a
    by_cases hf : kMax ≤ s.cnt
    · rw [if_pos hf]
      refine ⟨g, by simp, by simp, by simp, by simp, fun _ => ⟨?_, hno⟩⟩
      have := c.cap; unfold kMax at hf; omega
    · rw [if_neg hf]
      have hpa : ∀ x v, Paired { setW s w { s.ws w with tp := true } with h := upd s.h s.cnt (hd w), p := upd s.p s.cnt (some w), cnt := s.cnt + 1 } x v ↔
          if x = hd w then v = w else Paired s x v := by
        intro x v
        constructor
        · rintro ⟨i, hi, a, b⟩
          have hi : i < s.cnt + 1 := hi
          simp only [upd] at a b
          by_cases e : i = s.cnt
          · rw [if_pos e] at a b; rw [if_pos a.symm]; cases b; rfl
          · rw [if_neg e] at a b
            have hx : x ≠ hd w := fun hx => h3 i (by omega) (by rw [a, hx])
            rw [if_neg hx]; exact ⟨i, by omega, a, b⟩
        · intro h
          by_cases hx : x = hd w
          · rw [if_pos hx] at h
            exact ⟨s.cnt, Nat.lt_succ_self _, by simp [upd, hx], by simp [upd, h]⟩
          · rw [if_neg hx] at h
            obtain ⟨i, hi, a, b⟩ := h
            have e : i ≠ s.cnt := by omega
            exact ⟨i, Nat.lt_succ_of_lt hi, by simpa [upd, e] using a, by simpa [upd, e] using b⟩
      refine ⟨?_, fun _ => hpa, by simp, by simp, by simp, by simp⟩
      show Good hd { setW s w { s.ws w with tp := true } with h := upd s.h s.cnt (hd w), p := upd s.p s.cnt (some w), cnt := s.cnt + 1 }
      refine ⟨⟨⟨?_, ?_, ?_, ?_, ?_⟩, ?_, ?_, g.inv.pend⟩, ?_, g.del⟩
      · show s.cnt + 1 ≤ 63; unfold kMax at hf; omega
      · intro i hi
        have hi : s.cnt + 1 ≤ i := hi
        have e : i ≠ s.cnt := by omega
        simp only [upd, if_neg e]; exact c.out i (by omega)
      · intro i hi
        have hi : i < s.cnt + 1 := hi
        by_cases e : i = s.cnt
        · exact ⟨w, by simp [upd, e], by simp [upd, e]⟩
        · obtain ⟨v, a, b⟩ := c.slot i (by omega)
          exact ⟨v, by simpa [upd, e] using a, by simpa [upd, e] using b⟩
      · intro i hi
        have hi : i < s.cnt + 1 := hi
        by_cases e : i = s.cnt
        · simpa [upd, e] using hz
        · simpa [upd, e] using c.nz i (by omega)
      · intro i hi j hj h
        have hi : i < s.cnt + 1 := hi
        have hj : j < s.cnt + 1 := hj
        simp only [upd] at h
        by_cases e : i = s.cnt <;> by_cases e' : j = s.cnt
        · omega
        · rw [if_pos e, if_neg e'] at h; exact absurd h.symm (h3 j (by omega))
        · rw [if_neg e, if_pos e'] at h; exact absurd h (h3 i (by omega))
        · rw [if_neg e, if_neg e'] at h; exact c.inj i (by omega) j (by omega) h
      · intro v hav ht hs
        rw [hpa]
        by_cases e : v = w
        · rw [if_pos (by rw [e])]; exact e
        · simp only [setW, upd, if_neg e] at hav ht hs
          have hp := g.inv.tp v hav ht hs
          have hx : hd v ≠ hd w := fun hx => hno v (by rw [← hx]; exact hp)
          rw [if_neg hx]; exact hp
      · intro v hs
        by_cases e : v = w
        · subst e; simp [setW, upd] at hs; exact absurd hs hc
        · simp only [setW, upd, if_neg e] at hs ⊢; exact g.inv.tpc v hs
      · intro x v hp hav
        rw [hpa] at hp
        by_cases e : v = w
        · subst e; simp [setW, upd, hc]
        · simp only [setW, upd, if_neg e] at hav ⊢
          by_cases hx : x = hd w
          · rw [if_pos hx] at hp; exact absurd hp e
          · rw [if_neg hx] at hp; exact g.pt x v hp hav

theorem process_good {hd : Nat → Nat} {s : St} (g : Good hd s) {i : Nat} (hi : i < s.cnt) :
    Good hd (process s i) ∧ (∀ x v, Paired (process s i) x v ↔ Paired s x v ∧ x ≠ s.h i) ∧ (process s i).cnt = s.cnt - 1 ∧
    (∀ j < i, (process s i).h j = s.h j ∧ (process s i).p j = s.p j) ∧
    (∀ v, ((process s i).ws v).alive = (s.ws v).alive ∧ ((process s i).ws v).timeout = (s.ws v).timeout ∧ (s.p i ≠ some v → ((process s i).ws v).status = (s.ws v).status)) ∧
    (∀ y, y ∈ (process s i).delivered ↔ y ∈ s.delivered ∨ (s.p i = some y.1 ∧ y.2 = s.h i ∧ (s.ws y.1).alive = true ∧ (s.ws y.1).status = .started)) := by
  obtain ⟨e1, e2, e3, e4⟩ := removeAt_ws hi
  have gr := good_removeAt g hi
  unfold process
  rw [if_neg (by omega)]
  dsimp only
  obtain ⟨v0, hv0, hv1⟩ := g.inv.core.slot i hi
  cases hg : get s i with
  | none =>
    have hdead := get_none hg hv0
    dsimp only
    refine ⟨gr, fun x v => removeAt_paired g.inv.core hi x v, e2, fun j hj => removeAt_low hi hj, fun v => ?_, fun y => ?_⟩
    · rw [e1]; exact ⟨wsAt_alive _ _ _, wsAt_timeout _ _ _, fun _ => wsAt_status _ _ _⟩
    · rw [e4, hv0]
      constructor
      · exact .inl
      · rintro (h | ⟨h1, _, h3, _⟩)
        · exact h
        · cases h1; rw [hdead] at h3; cases h3
  | some w =>
    obtain ⟨h1, h2⟩ := get_eq hg
    rw [hv0] at h1; cases h1
    dsimp only
    have hst : ((removeAt s i).ws v0).status = (s.ws v0).status := by rw [e1]; exact wsAt_status _ _ _
    have htp : ((removeAt s i).ws v0).tp = false := by rw [e1]; unfold clearTp; rw [if_pos hg]
    have hnp : ∀ y, ¬ Paired (removeAt s i) y v0 := by
      intro y hp
      rw [removeAt_paired g.inv.core hi] at hp
      exact hp.2 (by rw [← (paired_hd g.inv.core hp.1).1, hv1])
    rw [hst]
    by_cases hs : (s.ws v0).status = .started
    · rw [if_pos hs]
      have g2 : Good hd (setW (removeAt s i) v0 { (removeAt s i).ws v0 with status := .completed }) :=
        good_setW gr (fun _ h => by dsimp only at h; rw [htp] at h; cases h) (fun _ => .inl htp) (fun y hy => absurd hy (hnp y))
      refine ⟨⟨⟨core_congr g2.inv.core rfl rfl rfl, g2.inv.tp, g2.inv.tpc, g2.inv.pend⟩, g2.pt, ?_⟩, fun x v => removeAt_paired g.inv.core hi x v, e2, fun j hj => removeAt_low hi hj, fun v => ?_, fun y => ?_⟩
      · intro y hy
        rcases List.mem_cons.1 hy with rfl | hy
        · exact hv1
        · rw [e4] at hy; exact g.del y hy
      · simp only [setW, upd]
        by_cases e : v = v0
        · subst e; rw [if_pos rfl]
          exact ⟨by rw [e1]; exact wsAt_alive _ _ _, by rw [e1]; exact wsAt_timeout _ _ _, fun h => absurd hv0 h⟩
        · rw [if_neg e, e1]; exact ⟨wsAt_alive _ _ _, wsAt_timeout _ _ _, fun _ => wsAt_status _ _ _⟩
      · show y ∈ (v0, s.h i) :: (removeAt s i).delivered ↔ _
        rw [e4, List.mem_cons, hv0]
        constructor
        · rintro (rfl | h)
          · exact .inr ⟨rfl, rfl, h2, hs⟩
          · exact .inl h
        · rintro (h | ⟨a, b, _, _⟩)
          · exact .inr h
          · cases a; exact .inl (by rw [← b])
    · rw [if_neg hs]
      refine ⟨gr, fun x v => removeAt_paired g.inv.core hi x v, e2, fun j hj => removeAt_low hi hj, fun v => ?_, fun y => ?_⟩
      · rw [e1]; exact ⟨wsAt_alive _ _ _, wsAt_timeout _ _ _, fun _ => wsAt_status _ _ _⟩
      · rw [e4, hv0]
        constructor
        · exact .inl
        · rintro (h | ⟨a, _, _, d⟩)
          · exact h
          · cases a; exact absurd d hs

/-- the wait still exists and is not cancelled -/
def Live (s : St) (v : Nat) : Prop := (s.ws v).alive = true ∧ (s.ws v).status ≠ .canceled

theorem minLoop_good {hd : Nat → Nat} : ∀ (n : Nat) {s : St} (_ : Good hd s) (_ : n ≤ s.cnt) (m : Option Int),
    Good hd (minLoop s m n).1 ∧
    (∀ x v, Paired (minLoop s m n).1 x v ↔ ∃ j < s.cnt, s.h j = x ∧ s.p j = some v ∧ (j < n → Live s v)) ∧
    (∀ t, (minLoop s m n).2 = some t → m = some t ∨ ∃ j < n, ∃ v, s.p j = some v ∧ Live s v ∧ (s.ws v).timeout = t) ∧
    (∀ t, m = some t → ∃ t', (minLoop s m n).2 = some t' ∧ t' ≤ t) ∧
    (∀ j < n, ∀ v, s.p j = some v → Live s v → ∃ t', (minLoop s m n).2 = some t' ∧ t' ≤ (s.ws v).timeout) := by
  intro n
  induction n with
  | zero =>
    intro s g _ m
    refine ⟨g, fun x v => ?_, fun t h => .inl h, fun t h => ⟨t, h, Int.le_refl _⟩, fun j hj => by omega⟩
    exact ⟨fun ⟨j, a, b, d⟩ => ⟨j, a, b, d, fun h => by omega⟩, fun ⟨j, a, b, d, _⟩ => ⟨j, a, b, d⟩⟩
  | succ n ih =>
    intro s g hn m
    have hi : n < s.cnt := by omega
    obtain ⟨v0, hv0, hv1⟩ := g.inv.core.slot n hi
    have drop : ¬ Live s v0 → ∀ m, _ := fun hl m => ih (good_removeAt g hi) (by rw [(removeAt_ws hi).2.1]; omega) m
    have keep : ∀ (m' : Option Int), _ := fun m' => ih g (by omega) m'
    -- the slot is cleared
    have caseDrop : ¬ Live s v0 →
        Good hd (minLoop (removeAt s n) m n).1 ∧
        (∀ x v, Paired (minLoop (removeAt s n) m n).1 x v ↔ ∃ j < s.cnt, s.h j = x ∧ s.p j = some v ∧ (j < n + 1 → Live s v)) ∧
        (∀ t, (minLoop (removeAt s n) m n).2 = some t → m = some t ∨ ∃ j < n + 1, ∃ v, s.p j = some v ∧ Live s v ∧ (s.ws v).timeout = t) ∧
        (∀ t, m = some t → ∃ t', (minLoop (removeAt s n) m n).2 = some t' ∧ t' ≤ t) ∧
        (∀ j < n + 1, ∀ v, s.p j = some v → Live s v → ∃ t', (minLoop (removeAt s n) m n).2 = some t' ∧ t' ≤ (s.ws v).timeout) := by
      intro hl
      obtain ⟨a1, a2, a3, a4, a5⟩ := drop hl m
      have hlive : ∀ v, Live (removeAt s n) v ↔ Live s v := by
        intro v; unfold Live; rw [(removeAt_ws hi).1, wsAt_alive, wsAt_status]
      have hto : ∀ v, ((removeAt s n).ws v).timeout = (s.ws v).timeout := by intro v; rw [(removeAt_ws hi).1, wsAt_timeout]
      refine ⟨a1, fun x v => ?_, fun t ht => ?_, a4, fun j hj v hv hlv => ?_⟩
      · rw [a2]
        constructor
        · rintro ⟨j, hj, b1, b2, b3⟩
          have hp : Paired (removeAt s n) x v := ⟨j, hj, b1, b2⟩
          rw [removeAt_paired g.inv.core hi] at hp
          obtain ⟨⟨k, hk, c1, c2⟩, hx⟩ := hp
          refine ⟨k, hk, c1, c2, fun hkn => ?_⟩
          have hkn' : k ≠ n := fun e => hx (by rw [← c1, e])
          have low := removeAt_low hi (show k < n by omega)
          have hjk : j = k := by
            have : (removeAt s n).h j = (removeAt s n).h k := by rw [b1, low.1, c1]
            exact (removeAt_core g.inv.core hi).inj j hj k (by rw [(removeAt_ws hi).2.1]; omega) this
          exact (hlive v).1 (b3 (by omega))
        · rintro ⟨k, hk, c1, c2, c3⟩
          have hx : x ≠ s.h n := by
            intro hx
            have : k = n := g.inv.core.inj k hk n hi (by rw [c1, hx])
            subst this
            rw [hv0] at c2; cases c2
            exact hl (c3 (by omega))
          have hp : Paired (removeAt s n) x v := (removeAt_paired g.inv.core hi x v).2 ⟨⟨k, hk, c1, c2⟩, hx⟩
          obtain ⟨j, hj, b1, b2⟩ := hp
          refine ⟨j, hj, b1, b2, fun hjn => ?_⟩
          have low := removeAt_low hi hjn
          have : j = k := by
            rw [low.1] at b1
            exact g.inv.core.inj j (by omega) k hk (by rw [b1, c1])
          subst this
          exact (hlive v).2 (c3 (by omega))
      · rcases a3 t ht with h | ⟨j, hj, v, b1, b2, b3⟩
        · exact .inl h
        · rw [(removeAt_low hi hj).2] at b1
          rw [hto] at b3
          exact .inr ⟨j, by omega, v, b1, (hlive v).1 b2, b3⟩
      · have hjn : j ≠ n := by rintro rfl; rw [hv0] at hv; cases hv; exact hl hlv
        have := a5 j (by omega) v (by rw [(removeAt_low hi (by omega)).2]; exact hv) ((hlive v).2 hlv)
        rw [hto] at this; exact this
    unfold minLoop
    cases hg : get s n with
    | none =>
      have : ¬ Live s v0 := fun h => by have := get_none hg hv0; rw [h.1] at this; cases this
      exact caseDrop this
    | some w =>
      obtain ⟨h1, h2⟩ := get_eq hg
      rw [hv0] at h1; cases h1
      dsimp only
      by_cases hs : (s.ws v0).status = .canceled
      · rw [if_pos hs]; exact caseDrop fun h => h.2 hs
      · rw [if_neg hs]
        have hl : Live s v0 := ⟨h2, hs⟩
        obtain ⟨m', hm', q1, q2, q3⟩ : ∃ m' : Option Int, earlier m (s.ws v0).timeout = m' ∧
            (∃ t, m' = some t ∧ t ≤ (s.ws v0).timeout) ∧ (∀ t, m = some t → ∃ t', m' = some t' ∧ t' ≤ t) ∧ (∀ t, m' = some t → m = some t ∨ (s.ws v0).timeout = t) := by
          cases m with
          | none => exact ⟨_, rfl, ⟨_, rfl, Int.le_refl _⟩, by simp, fun t h => .inr (by cases h; rfl)⟩
          | some t0 =>
            unfold earlier; dsimp only
            by_cases ht : t0 > (s.ws v0).timeout
            · rw [if_pos ht]; exact ⟨_, rfl, ⟨_, rfl, Int.le_refl _⟩, fun t h => ⟨_, rfl, by cases h; omega⟩, fun t h => .inr (by cases h; rfl)⟩
            · rw [if_neg ht]; exact ⟨_, rfl, ⟨_, rfl, by omega⟩, fun t h => ⟨_, rfl, by cases h; omega⟩, fun t h => .inl h⟩
        rw [hm']
        obtain ⟨a1, a2, a3, a4, a5⟩ := keep m'
        refine ⟨a1, fun x v => ?_, fun t ht => ?_, fun t ht => ?_, fun j hj v hv hlv => ?_⟩
        · rw [a2]
          constructor
          · rintro ⟨j, hj, b1, b2, b3⟩
            refine ⟨j, hj, b1, b2, fun h => ?_⟩
            by_cases e : j = n
            · rw [e, hv0] at b2; cases b2; exact hl
            · exact b3 (by omega)
          · rintro ⟨j, hj, b1, b2, b3⟩; exact ⟨j, hj, b1, b2, fun h => b3 (by omega)⟩
        · rcases a3 t ht with h | ⟨j, hj, v, b⟩
          · rcases q3 t h with h | h
            · exact .inl h
            · exact .inr ⟨n, by omega, v0, hv0, hl, h⟩
          · exact .inr ⟨j, by omega, v, b⟩
        · obtain ⟨t1, h1, h2⟩ := q2 t ht
          obtain ⟨t2, h3, h4⟩ := a4 t1 h1
          exact ⟨t2, h3, by omega⟩
        · by_cases e : j = n
          · rw [e, hv0] at hv; cases hv
            obtain ⟨t1, h1, h2⟩ := q1
            obtain ⟨t2, h3, h4⟩ := a4 t1 h1
            exact ⟨t2, h3, by omega⟩
          · exact a5 j (by omega) v hv hlv

/-- the wait exists and its time is not over (more than a millisecond left) -/
def Waiting (now : Int) (s : St) (v : Nat) : Prop := (s.ws v).alive = true ∧ ms ((s.ws v).timeout - now) > 0

theorem timeoutLoop_good {hd : Nat → Nat} (now : Int) : ∀ (n : Nat) {s : St} (_ : Good hd s) (_ : n ≤ s.cnt),
    Good hd (timeoutLoop now s n) ∧
    (∀ x v, Paired (timeoutLoop now s n) x v ↔ ∃ j < s.cnt, s.h j = x ∧ s.p j = some v ∧ (j < n → Waiting now s v)) ∧
    (∀ y, y ∈ (timeoutLoop now s n).delivered ↔ y ∈ s.delivered ∨
      ∃ j < n, s.p j = some y.1 ∧ s.h j = y.2 ∧ (s.ws y.1).alive = true ∧ (s.ws y.1).status = .started ∧ ms ((s.ws y.1).timeout - now) ≤ 0) := by
  intro n
  induction n with
  | zero =>
    intro s g _
    refine ⟨g, fun x v => ?_, fun y => ?_⟩
    · exact ⟨fun ⟨j, a, b, d⟩ => ⟨j, a, b, d, fun h => by omega⟩, fun ⟨j, a, b, d, _⟩ => ⟨j, a, b, d⟩⟩
    · exact ⟨.inl, fun h => h.elim id fun ⟨j, hj, _⟩ => by omega⟩
  | succ n ih =>
    intro s g hn
    have hi : n < s.cnt := by omega
    obtain ⟨v0, hv0, hv1⟩ := g.inv.core.slot n hi
    -- the slot is cleared, by `removeAt` or by `process`
    have caseDrop : ∀ s' : St, Good hd s' → ¬ Waiting now s v0 → (∀ x v, Paired s' x v ↔ Paired s x v ∧ x ≠ s.h n) → s'.cnt = s.cnt - 1 →
        (∀ j < n, s'.h j = s.h j ∧ s'.p j = s.p j) →
        (∀ v, (s'.ws v).alive = (s.ws v).alive ∧ (s'.ws v).timeout = (s.ws v).timeout ∧ (s.p n ≠ some v → (s'.ws v).status = (s.ws v).status)) →
        (∀ y, y ∈ s'.delivered ↔ y ∈ s.delivered ∨ (s.p n = some y.1 ∧ y.2 = s.h n ∧ (s.ws y.1).alive = true ∧ (s.ws y.1).status = .started)) →
        Good hd (timeoutLoop now s' n) ∧
        (∀ x v, Paired (timeoutLoop now s' n) x v ↔ ∃ j < s.cnt, s.h j = x ∧ s.p j = some v ∧ (j < n + 1 → Waiting now s v)) ∧
        (∀ y, y ∈ (timeoutLoop now s' n).delivered ↔ y ∈ s.delivered ∨
          ∃ j < n + 1, s.p j = some y.1 ∧ s.h j = y.2 ∧ (s.ws y.1).alive = true ∧ (s.ws y.1).status = .started ∧ ms ((s.ws y.1).timeout - now) ≤ 0) := by
      intro s' g' hw hp hc hlow hws hdel
      obtain ⟨a1, a2, a3⟩ := ih g' (by omega)
      have hwait : ∀ v, Waiting now s' v ↔ Waiting now s v := by
        intro v; unfold Waiting; rw [(hws v).1, (hws v).2.1]
      refine ⟨a1, fun x v => ?_, fun y => ?_⟩
      · rw [a2]
        constructor
        · rintro ⟨j, hj, b1, b2, b3⟩
          have hp' : Paired s' x v := ⟨j, hj, b1, b2⟩
          rw [hp] at hp'
          obtain ⟨⟨k, hk, c1, c2⟩, hx⟩ := hp'
          refine ⟨k, hk, c1, c2, fun hkn => ?_⟩
          have hkn' : k ≠ n := fun e => hx (by rw [← c1, e])
          have low := hlow k (by omega)
          have hjk : j = k := g'.inv.core.inj j hj k (by omega) (by rw [b1, low.1, c1])
          exact (hwait v).1 (b3 (by omega))
        · rintro ⟨k, hk, c1, c2, c3⟩
          have hx : x ≠ s.h n := by
            intro hx
            have : k = n := g.inv.core.inj k hk n hi (by rw [c1, hx])
            subst this
            rw [hv0] at c2; cases c2
            exact hw (c3 (by omega))
          obtain ⟨j, hj, b1, b2⟩ := (hp x v).2 ⟨⟨k, hk, c1, c2⟩, hx⟩
          refine ⟨j, hj, b1, b2, fun hjn => ?_⟩
          have low := hlow j hjn
          have : j = k := by
            rw [low.1] at b1
            exact g.inv.core.inj j (by omega) k hk (by rw [b1, c1])
          subst this
          exact (hwait v).2 (c3 (by omega))
      · rw [a3, hdel]
        constructor
        · rintro ((h | ⟨h1, h2, h3, h4⟩) | ⟨j, hj, h1, h2, h3, h4, h5⟩)
          · exact .inl h
          · refine .inr ⟨n, by omega, h1, h2.symm, h3, h4, ?_⟩
            rw [hv0] at h1
            have h1 : v0 = y.1 := by simpa using h1
            rw [h1] at hw
            refine Classical.byContradiction fun h => hw ⟨h3, by omega⟩
          · rw [(hlow j hj).2] at h1
            rw [(hlow j hj).1] at h2
            have hne : s.p n ≠ some y.1 := by
              intro e
              have e1 : hd y.1 = s.h n := (paired_hd g.inv.core ⟨n, hi, rfl, e⟩).1
              have e2 : hd y.1 = s.h j := (paired_hd g.inv.core ⟨j, by omega, rfl, h1⟩).1
              have := g.inv.core.inj j (by omega) n hi (by omega)
              omega
            obtain ⟨k1, k2, k3⟩ := hws y.1
            rw [k1] at h3; rw [k2] at h5; rw [k3 hne] at h4
            exact .inr ⟨j, by omega, h1, h2, h3, h4, h5⟩
        · rintro (h | ⟨j, hj, h1, h2, h3, h4, h5⟩)
          · exact .inl (.inl h)
          · by_cases e : j = n
            · subst e; exact .inl (.inr ⟨h1, h2.symm, h3, h4⟩)
            · have hne : s.p n ≠ some y.1 := by
                intro e
                have e1 : hd y.1 = s.h n := (paired_hd g.inv.core ⟨n, hi, rfl, e⟩).1
                have e2 : hd y.1 = s.h j := (paired_hd g.inv.core ⟨j, by omega, rfl, h1⟩).1
                have := g.inv.core.inj j (by omega) n hi (by omega)
                omega
              obtain ⟨k1, k2, k3⟩ := hws y.1
              exact .inr ⟨j, by omega, by rw [(hlow j (by omega)).2]; exact h1, by rw [(hlow j (by omega)).1]; exact h2, by rw [k1]; exact h3, by rw [k3 hne]; exact h4, by rw [k2]; exact h5⟩
    unfold timeoutLoop
    cases hg : get s n with
    | none =>
      have hdead := get_none hg hv0
      have hw : ¬ Waiting now s v0 := fun h => by rw [h.1] at hdead; cases hdead
      obtain ⟨e1, e2, e3, e4⟩ := removeAt_ws hi
      refine caseDrop _ (good_removeAt g hi) hw (removeAt_paired g.inv.core hi) e2 (fun j hj => removeAt_low hi hj) ?_ ?_
      · intro v; rw [e1]; exact ⟨wsAt_alive _ _ _, wsAt_timeout _ _ _, fun _ => wsAt_status _ _ _⟩
      · intro y
        rw [e4]
        refine ⟨.inl, fun h => h.elim id fun ⟨h1, _, h3, _⟩ => ?_⟩
        rw [hv0] at h1
        have h1 : v0 = y.1 := by simpa using h1
        rw [← h1, hdead] at h3; cases h3
    | some w =>
      obtain ⟨h1, h2⟩ := get_eq hg
      rw [hv0] at h1; cases h1
      dsimp only
      by_cases ht : ms ((s.ws v0).timeout - now) > 0
      · rw [if_pos ht]
        obtain ⟨a1, a2, a3⟩ := ih g (by omega)
        refine ⟨a1, fun x v => ?_, fun y => ?_⟩
        · rw [a2]
          constructor
          · rintro ⟨j, hj, b1, b2, b3⟩
            refine ⟨j, hj, b1, b2, fun h => ?_⟩
            by_cases e : j = n
            · rw [e, hv0] at b2; cases b2; exact ⟨h2, ht⟩
            · exact b3 (by omega)
          · rintro ⟨j, hj, b1, b2, b3⟩; exact ⟨j, hj, b1, b2, fun h => b3 (by omega)⟩
        · rw [a3]
          refine or_congr_right ⟨fun ⟨j, hj, h⟩ => ⟨j, by omega, h⟩, fun ⟨j, hj, h⟩ => ⟨j, ?_, h⟩⟩
          have : j ≠ n := by
            rintro rfl
            have h1 : v0 = y.1 := by have := h.1; rw [hv0] at this; simpa using this
            rw [← h1] at h
            have := h.2.2.2.2; omega
          omega
      · rw [if_neg ht]
        obtain ⟨p1, p2, p3, p4, p5, p6⟩ := process_good g hi
        exact caseDrop _ p1 (fun h => ht h.2) p2 p3 p4 p5 p6

theorem step_good {hd : Nat → Nat} {s s' : St} (g : Good hd s) (e : Ev) (hal : Allowed hd s e) (hs : step hd s e = some s') : Good hd s' := by
  cases e with
  | set w raced =>
    simp only [step] at hs
    split at hs
    · rename_i h; cases hs; exact (set_good g h.1 h.2 hal).1
    · cases hs
  | finish =>
    simp only [step, g.inv.pend, if_true] at hs; cases hs
  | cancel w =>
    simp only [step] at hs
    split at hs
    · rename_i h; cases hs; exact (cancel_good g h).1
    · cases hs
  | remoteBegin w =>
    simp only [step] at hs
    split at hs
    · cases hs
      exact good_setW g (fun _ _ h => by cases h) (fun h => by cases h) (fun _ _ _ => ⟨(by intro h; cases h), (by intro h; cases h)⟩)
    · cases hs
  | remoteExch w =>
    simp only [step] at hs
    split at hs
    · rename_i h; cases hs
      exact good_setW g (fun _ h => by cases h) (fun _ => .inl rfl) (fun _ _ _ => ⟨(by show (s.ws w).status ≠ .completed; rw [h]; exact (by decide)), (by show (s.ws w).status = .started → _; rw [h]; exact fun h => absurd h (by decide))⟩)
    · cases hs
  | expire w =>
    simp only [step] at hs
    split at hs
    · cases hs
    · cases hs
      exact good_setW g (fun h => by cases h) (fun _ => .inr rfl) (fun _ _ h => by cases h)
  | reset w t =>
    simp only [step] at hs
    split at hs
    · rename_i h; cases hs
      have h1 : (s.ws w).tp = false := by
        rcases g.inv.tpc w h.2 with a | a
        · exact a
        · rw [h.1] at a; cases a
      refine good_setW g (fun _ h2 => ?_) (fun h2 => by cases h2) (fun y hy _ => ?_)
      · have h2 : (s.ws w).tp = true := h2; rw [h1] at h2; cases h2
      · exact absurd h.2 (g.pt y w hy h.1).1
    · cases hs
  | process i =>
    simp only [step] at hs; cases hs
    by_cases hi : i < s.cnt
    · exact (process_good g hi).1
    · unfold process; rw [if_pos (by omega)]; exact g
  | minimum =>
    simp only [step] at hs; cases hs
    exact (minLoop_good s.cnt g (Nat.le_refl _) none).1
  | timeouts now =>
    simp only [step] at hs; cases hs
    exact (timeoutLoop_good now s.cnt g (Nat.le_refl _)).1

theorem good_init (hd : Nat → Nat) : Good hd {} :=
  ⟨⟨⟨by decide, fun _ _ => ⟨rfl, rfl⟩, fun i hi => absurd hi (Nat.not_lt_zero _), fun i hi => absurd hi (Nat.not_lt_zero _), fun i hi => absurd hi (Nat.not_lt_zero _)⟩,
    (fun w _ h => by cases h), (fun _ h => by cases h), rfl⟩, fun x v ⟨i, hi, _⟩ => absurd hi (Nat.not_lt_zero _), fun y hy => by cases hy⟩

theorem run_good {hd : Nat → Nat} : ∀ (es : List Ev) {s s' : St} (_ : Good hd s) (_ : AllowedRun hd s es) (_ : run hd s es = some s'), Good hd s'
  | [], s, s', g, _, h => by cases h; exact g
  | e :: es, s, s', g, ha, h => by
    simp only [run] at h
    cases hs : step hd s e with
    | none => rw [hs] at h; cases h
    | some s1 => rw [hs] at h; exact run_good es (step_good g e ha.1 hs) (ha.2 s1 hs) h

/-- a state that a history can lead to in which no handle gets a second pending wait -/
def Reached (hd : Nat → Nat) (s : St) : Prop := ∃ es, AllowedRun hd {} es ∧ run hd {} es = some s

theorem Reached.good {hd : Nat → Nat} {s : St} (h : Reached hd s) : Good hd s := by
  obtain ⟨es, h1, h2⟩ := h
  exact run_good es (good_init hd) h1 h2

/-- **C54 (partial)**: the `i`-th handle is paired with a wait for it, no handle stands twice, at most 63 are registered, the slots behind them are empty.
Missing: histories in which a handle gets a second pending wait (`C54_replace_fails`). -/
theorem C54_paired_partial (hd : Nat → Nat) (s : St) (h : Reached hd s) :
    s.cnt ≤ 63 ∧ (∀ i < s.cnt, ∃ w, s.p i = some w ∧ hd w = s.h i ∧ s.h i ≠ 0) ∧ (∀ i < s.cnt, ∀ j < s.cnt, s.h i = s.h j → i = j) ∧
    (∀ i, s.cnt ≤ i → s.h i = 0 ∧ s.p i = none) := by
  have c := h.good.inv.core
  refine ⟨c.cap, fun i hi => ?_, c.inj, c.out⟩
  obtain ⟨w, h1, h2⟩ := c.slot i hi
  exact ⟨w, h1, h2, c.nz i hi⟩

/-- **C54 (partial)**: registering a wait pairs its handle with it and changes nothing else; if it is refused nothing changes, and it is refused only when the wait was cancelled,
the handle is null, or 63 other handles are registered -/
theorem C54_set_partial (hd : Nat → Nat) (s : St) (h : Reached hd s) (w : Nat) (raced : Bool) (ha : (s.ws w).alive = true) (hc : (s.ws w).status ≠ .completed)
    (hal : Allowed hd s (.set w raced)) :
    ((set hd s w raced).2 = .ok → ∀ x v, Paired (set hd s w raced).1 x v ↔ if x = hd w then v = w else Paired s x v) ∧
    ((set hd s w raced).2 ≠ .ok → (set hd s w raced).1 = s ∧ ((s.ws w).status = .canceled ∨ hd w = 0 ∨ (s.cnt = 63 ∧ ∀ v, ¬ Paired s (hd w) v))) := by
  obtain ⟨_, h1, h2, h3, h4, h5⟩ := set_good h.good ha hc hal
  refine ⟨h1, fun hr => ⟨h2 hr, ?_⟩⟩
  cases e : (set hd s w raced).2 with
  | ok => exact absurd e hr
  | invalidArg => exact .inr (.inl (h4 e))
  | cancelled => exact .inl (h3 e)
  | notImpl => exact .inr (.inr (h5 e))

/-- **C54 (partial)**: cancelling a pending wait unregisters it and only it -/
theorem C54_cancel_partial (hd : Nat → Nat) (s : St) (h : Reached hd s) (w : Nat) (ha : (s.ws w).alive = true) :
    ((cancel hd s w).2 = true ↔ (s.ws w).status = .started) ∧
    (∀ x v, Paired (cancel hd s w).1 x v ↔ Paired s x v ∧ ((s.ws w).status = .started → v ≠ w)) := (cancel_good h.good ha).2

/-- **C54 (partial)**: when handle `i` is signalled, its registration and only its is removed, and the result goes to its wait if that is still pending -/
theorem C54_process_partial (hd : Nat → Nat) (s : St) (h : Reached hd s) (i : Nat) (hi : i < s.cnt) :
    (∀ x v, Paired (process s i) x v ↔ Paired s x v ∧ x ≠ s.h i) ∧
    (∀ y, y ∈ (process s i).delivered ↔ y ∈ s.delivered ∨ (Paired s (s.h i) y.1 ∧ y.2 = s.h i ∧ (s.ws y.1).alive = true ∧ (s.ws y.1).status = .started)) := by
  obtain ⟨_, h2, _, _, _, h6⟩ := process_good h.good hi
  refine ⟨h2, fun y => ?_⟩
  rw [h6]
  refine or_congr_right (and_congr_left fun _ => ⟨fun h => ⟨i, hi, rfl, h⟩, fun ⟨j, hj, h1, h2'⟩ => ?_⟩)
  have := h.good.inv.core.inj j hj i hi h1
  rw [← this]; exact h2'

/-- **C54 (partial)**: a result is delivered only for the wait's own handle -/
theorem C54_delivered_partial (hd : Nat → Nat) (s : St) (h : Reached hd s) (w x : Nat) (hm : (w, x) ∈ s.delivered) : hd w = x := h.good.del _ hm

/-- **C54 (partial)**: `GetMinimumWakeupTickCount` removes exactly the registrations whose wait is gone or cancelled, and returns the least time-out of the others -/
theorem C54_minimum_partial (hd : Nat → Nat) (s : St) (h : Reached hd s) :
    (∀ x v, Paired (minimum s).1 x v ↔ Paired s x v ∧ Live s v) ∧
    (∀ t, (minimum s).2 = some t → ∃ x v, Paired s x v ∧ Live s v ∧ (s.ws v).timeout = t) ∧
    (∀ x v, Paired s x v → Live s v → ∃ t, (minimum s).2 = some t ∧ t ≤ (s.ws v).timeout) := by
  obtain ⟨_, h2, h3, _, h5⟩ := minLoop_good s.cnt h.good (Nat.le_refl _) none
  refine ⟨fun x v => ?_, fun t ht => ?_, fun x v ⟨i, hi, a, b⟩ hl => h5 i hi v b hl⟩
  · unfold minimum
    rw [h2]
    exact ⟨fun ⟨j, hj, a, b, d⟩ => ⟨⟨j, hj, a, b⟩, d hj⟩, fun ⟨⟨j, hj, a, b⟩, d⟩ => ⟨j, hj, a, b, fun _ => d⟩⟩
  · rcases h3 t ht with e | ⟨j, hj, v, b⟩
    · cases e
    · exact ⟨_, v, ⟨j, hj, rfl, b.1⟩, b.2⟩

/-- **C54 (partial)**: at a time-out exactly the registrations whose wait is gone or whose time is over (less than a millisecond left) are removed, and exactly their pending waits
get the result -/
theorem C54_timeouts_partial (hd : Nat → Nat) (s : St) (h : Reached hd s) (now : Int) :
    (∀ x v, Paired (timeouts now s) x v ↔ Paired s x v ∧ Waiting now s v) ∧
    (∀ y, y ∈ (timeouts now s).delivered ↔ y ∈ s.delivered ∨ (Paired s y.2 y.1 ∧ (s.ws y.1).alive = true ∧ (s.ws y.1).status = .started ∧ ms ((s.ws y.1).timeout - now) ≤ 0)) := by
  obtain ⟨_, h2, h3⟩ := timeoutLoop_good now s.cnt h.good (Nat.le_refl _)
  refine ⟨fun x v => ?_, fun y => ?_⟩
  · unfold timeouts
    rw [h2]
    exact ⟨fun ⟨j, hj, a, b, d⟩ => ⟨⟨j, hj, a, b⟩, d hj⟩, fun ⟨⟨j, hj, a, b⟩, d⟩ => ⟨j, hj, a, b, fun _ => d⟩⟩
  · unfold timeouts
    rw [h3]
    exact or_congr_right ⟨fun ⟨j, hj, a, b, d⟩ => ⟨⟨j, hj, b, a⟩, d⟩, fun ⟨⟨j, hj, b, a⟩, d⟩ => ⟨j, hj, a, b, d⟩⟩

/-- the millisecond: the wait's time is over up to 1 ms early -/
theorem ms_pos (d : Int) : ms d > 0 ↔ d ≥ 10000 := by
  unfold ms
  by_cases h : 0 ≤ d
  · rw [Int.tdiv_eq_ediv_of_nonneg h]; omega
  · have : d.tdiv 10000 ≤ 0 := by
      have h1 : (-d).tdiv 10000 = -(d.tdiv 10000) := Int.neg_tdiv ..
      have h2 := Int.tdiv_nonneg (a := -d) (b := 10000) (by omega) (by omega)
      omega
    omega

/-! ## Counterexamples and cases -/

/-- wait `w` is for handle `w / 10` -/
def hd10 (w : Nat) : Nat := w / 10

/-- **C54 fails**: handles 1 and 2 are registered with the waits 10 and 20.  A second wait (11) for handle 1 is registered: afterwards handle 1 is gone and handle 2 is paired with the
new wait, which is for handle 1; when handle 2 is signalled, wait 11 gets the result. -/
theorem C54_replace_fails : ∃ s s', run hd10 {} [.set 10 false, .set 20 false, .set 11 false, .finish] = some s ∧
    s.cnt = 1 ∧ s.h 0 = 2 ∧ s.p 0 = some 11 ∧ hd10 11 ≠ 2 ∧ step hd10 s (.process 0) = some s' ∧ s'.delivered = [(11, 2)] ∧ (s'.ws 20).status = .started ∧ s'.cnt = 0 := by
  refine ⟨_, _, rfl, ?_, ?_, ?_, ?_, rfl, ?_, ?_, ?_⟩ <;> decide

/-- **C54 fails**: with one handle the second wait is not registered at all although the result is `S_OK` -/
theorem C54_replace_lost_fails : ∃ s, run hd10 {} [.set 10 false, .set 11 false, .finish] = some s ∧ s.cnt = 0 ∧ (s.ws 11).status = .started ∧ (s.ws 11).tp = true ∧
    (set hd10 ((run hd10 {} [.set 10 false]).getD {}) 11 false).2 = .ok := by
  refine ⟨_, rfl, ?_, ?_, ?_, ?_⟩ <;> decide

/-- an allowed history: three waits, one cancelled, one signalled, the third times out; handle 1 is then used again -/
theorem C54_case : ∃ s, Reached hd10 s ∧ s.cnt = 1 ∧ s.h 0 = 1 ∧ s.p 0 = some 11 ∧ s.delivered = [(30, 3), (20, 2)] := by
  refine ⟨_, ⟨[.set 10 false, .set 20 false, .set 30 false, .cancel 10, .minimum, .process 1, .timeouts 0, .set 11 false], ?_, rfl⟩, ?_, ?_, ?_, ?_⟩
  · simp only [AllowedRun, Allowed, true_and, and_true]
    refine ⟨fun v hv => absurd hv ?_, fun s1 h1 => ⟨fun v hv => ?_, fun s2 h2 => ⟨fun v hv => ?_, fun s3 h3 s4 h4 s5 h5 s6 h6 s7 h7 => ⟨fun v hv => ?_, fun _ _ => trivial⟩⟩⟩⟩
    · rintro ⟨i, hi, _⟩; exact absurd hi (Nat.not_lt_zero _)
    · cases h1
      obtain ⟨i, hi, a, b⟩ := hv
      have : i = 0 := by have : i < 1 := hi; omega
      subst this; exact absurd a (by decide)
    · cases h1; cases h2
      obtain ⟨i, hi, a, b⟩ := hv
      have hi : i < 2 := hi
      rcases (show i = 0 ∨ i = 1 by omega) with rfl | rfl <;> exact absurd a (by decide)
    · cases h1; cases h2; cases h3; cases h4; cases h5; cases h6; cases h7
      obtain ⟨i, hi, a, b⟩ := hv
      have : i < 0 := hi
      omega
  · decide
  · decide
  · decide
  · decide

#print axioms C54_paired_partial
#print axioms C54_set_partial
#print axioms C54_cancel_partial
#print axioms C54_process_partial
#print axioms C54_delivered_partial
#print axioms C54_minimum_partial
#print axioms C54_timeouts_partial
#print axioms C54_replace_fails
#print axioms C54_replace_lost_fails
#print axioms C54_case

end Verif.WaitMgr
