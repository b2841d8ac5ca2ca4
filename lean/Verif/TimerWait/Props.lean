import Verif.TimerWait.Model
/-!
# C87 – whoever waits for a timer is woken, and a cancelled timer does not start
-/
namespace Verif.TimerWait

theorem wakeup_pc (h : Hr) (s : St) : (wakeup h s).pc = s.pc := by unfold wakeup; split <;> rfl
theorem wakeup_c (h : Hr) (s : St) : (wakeup h s).c = s.c := by unfold wakeup; split <;> rfl
theorem wakeup_started (h : Hr) (s : St) : (wakeup h s).started = s.started := by unfold wakeup; split <;> rfl
theorem wakeup_finished (h : Hr) (s : St) : (wakeup h s).finished = s.finished := by unfold wakeup; split <;> rfl

theorem wakeup_hr {h : Hr} (hh : h ≠ .pending) (s : St) : (wakeup h s).hr ≠ .pending := by
  unfold wakeup
  split
  · exact hh
  · assumption

theorem wakeup_waiting {h : Hr} (s : St) (hs : s.hr ≠ .pending → s.waiting = 0) : (wakeup h s).waiting = 0 := by
  unfold wakeup
  split
  · rfl
  · exact hs ‹_›

/-- **C87**: a thread sleeps in `WaitTask` only while the result is open: no wake-up is lost (every runner, every interleaving). -/
theorem C87_no_lost_wakeup {k : Kind} {win drop : Bool} {s : St} (h : Reach k win drop s) (hw : 0 < s.waiting) : s.hr = .pending := by
  have aux : ∀ {s}, Reach k win drop s → s.hr ≠ .pending → s.waiting = 0 := by
    intro s h
    induction h with
    | init => intro h; exact absurd rfl h
    | step _ hs ih =>
      cases hs with
      | wait _ h1 => intro h; exact absurd h1 h
      | waitNow _ h1 => exact ih
      | arm _ h1 h2 => intro h; exact absurd rfl h
      | post _ h1 => intro h; exact absurd rfl h
      | cancelWake _ h1 h2 => intro _; exact wakeup_waiting _ ih
      | checkCancel _ h1 h2 h3 => intro _; exact wakeup_waiting _ ih
      | checkFail _ h1 h2 h3 => intro _; exact wakeup_waiting _ ih
      | clear _ h1 h2 h3 => intro _; exact wakeup_waiting _ ih
      | clearLate _ h1 h2 h3 => intro _; exact wakeup_waiting _ ih
      | dispCancel _ h1 h2 => intro _; exact wakeup_waiting _ ih
      | dispGone _ h1 h2 => intro _; exact wakeup_waiting _ ih
      | refuse _ h1 => intro _; exact wakeup_waiting _ ih
      | cleanup _ h1 => intro _; exact wakeup_waiting _ ih
      | ranEnd _ r h1 => intro _; exact wakeup_waiting _ ih
      | ranAgain _ r h1 => intro _; exact wakeup_waiting _ ih
      | ranGone _ r h1 => intro _; exact wakeup_waiting _ ih
      | _ => exact ih
  cases hh : s.hr with
  | pending => rfl
  | _ => have := aux h (by rw [hh]; decide); omega

/-- **C87**: once `Cancel` has set the flag, the callback is not started any more – whatever happens afterwards (every runner, every interleaving). -/
theorem C87_no_start {k : Kind} {win drop : Bool} {s t : St} (h : Steps k win drop s t) (hc : s.canceled = true) :
    t.canceled = true ∧ t.started = s.started := by
  induction h with
  | refl => exact ⟨hc, rfl⟩
  | @tail l s t u _ hs ih =>
    obtain ⟨h0, h2⟩ := ih hc
    have h1 : t.c ≠ .idle := by simpa [St.canceled] using h0
    unfold St.canceled
    rw [decide_eq_true_eq]
    rw [← h2]
    cases hs with
    | cancel _ h3 => exact absurd h3 h1
    | cancelWake _ h3 h4 => exact ⟨by simp, wakeup_started _ _⟩
    | clear _ h3 h4 h5 => exact ⟨by simp, wakeup_started _ _⟩
    | run _ h3 h4 => simp [St.canceled] at h4; exact absurd h4 h1
    | checkCancel h1' h2' h3' => exact ⟨by simp only [wakeup_c]; exact h1, wakeup_started _ _⟩
    | checkFail h1' h2' h3' => exact ⟨by simp only [wakeup_c]; exact h1, wakeup_started _ _⟩
    | clearLate h1' h2' h3' => exact ⟨by simp only [wakeup_c]; exact h1, wakeup_started _ _⟩
    | dispCancel h1' h2' => exact ⟨by simp only [wakeup_c]; exact h1, wakeup_started _ _⟩
    | dispGone h1' h2' => exact ⟨by simp only [wakeup_c]; exact h1, wakeup_started _ _⟩
    | refuse h1' => exact ⟨by simp only [wakeup_c]; exact h1, wakeup_started _ _⟩
    | cleanup h1' => exact ⟨by simp only [wakeup_c]; exact h1, wakeup_started _ _⟩
    | ranEnd r h1' => exact ⟨by simp only [wakeup_c]; exact h1, wakeup_started _ _⟩
    | ranAgain r h1' => exact ⟨by simp only [wakeup_c]; exact h1, wakeup_started _ _⟩
    | ranGone r h1' => exact ⟨by simp only [wakeup_c]; exact h1, wakeup_started _ _⟩
    | _ => exact ⟨h1, rfl⟩

/-- what a result may be in a state -/
structure ResOk (s : St) : Prop where
  ran : ∀ r a, s.pc = .ran r a → (r = .ok ∧ 0 < s.finished) ∨ r = .cancelled
  ok : s.hr = .ok → 0 < s.finished

theorem resOk_wake {s : St} {r : Hr} {p : Pc} {c : Canc} (h : ResOk s) (hr : r = .ok → 0 < s.finished) (hp : ∀ r a, p ≠ .ran r a) :
    ResOk { wakeup r s with pc := p, c := c } := by
  refine ⟨fun r a e => absurd e (hp r a), fun e => ?_⟩
  simp only [wakeup_finished]
  simp only at e
  unfold wakeup at e
  split at e
  · exact hr e
  · exact h.ok e

theorem resOk_move {s : St} {p : Pc} (h : ResOk s) (hp : ∀ r a, p ≠ .ran r a) : ResOk { s with pc := p } :=
  ⟨fun r a e => absurd e (hp r a), h.ok⟩

/-- **C87**: a timer reports success only if its callback has run to its end. -/
theorem C87_truthful {k : Kind} {win drop : Bool} {s : St} (h : Reach k win drop s) (hr : s.hr = .ok) : 0 < s.finished ∧ 0 < s.started := by
  have aux : ∀ {s}, Reach k win drop s → ResOk s := by
    intro s h
    induction h with
    | init => exact ⟨fun _ _ h => (by cases h), fun h => (by cases h)⟩
    | @step l s t _ hs ih =>
      have nb : ∀ r a, Pc.over ≠ .ran r a := fun _ _ h => (by cases h)
      cases hs with
      | wait _ h1 => exact ⟨ih.ran, ih.ok⟩
      | waitNow _ h1 => exact ⟨ih.ran, ih.ok⟩
      | cancel _ h1 => exact ⟨ih.ran, ih.ok⟩
      | cancelWake _ h1 h2 =>
        refine ⟨fun r a e => ?_, fun e => ?_⟩
        · simp only [wakeup_pc] at e
          simp only [wakeup_finished]
          exact ih.ran r a e
        · simp only [wakeup_finished]
          simp only at e
          unfold wakeup at e
          split at e
          · cases e
          · exact ih.ok e
      | arm _ h1 h2 => exact ⟨fun _ _ h => (by cases h), fun h => (by cases h)⟩
      | post _ h1 => exact ⟨fun _ _ h => (by cases h), fun h => (by cases h)⟩
      | cbOk _ a h1 => exact ⟨fun r b e => (by injection e with e1 e2; exact .inl ⟨e1.symm, Nat.succ_pos _⟩), fun _ => Nat.succ_pos _⟩
      | cbThrow _ h1 => exact ⟨fun r b e => (by injection e with e1 e2; exact .inr e1.symm), ih.ok⟩
      | checkCancel _ h1 h2 h3 => exact resOk_wake ih (fun h => (by cases h)) nb
      | checkFail _ h1 h2 h3 => exact resOk_wake ih (fun h => (by cases h)) nb
      | clear _ h1 h2 h3 => exact resOk_wake ih (fun h => (by cases h)) nb
      | clearLate _ h1 h2 h3 => exact resOk_wake ih (fun h => (by cases h)) nb
      | dispCancel _ h1 h2 => exact resOk_wake ih (fun h => (by cases h)) nb
      | dispGone _ h1 h2 => exact resOk_wake ih (fun h => (by cases h)) nb
      | refuse _ h1 => exact resOk_wake ih (fun h => (by cases h)) nb
      | cleanup _ h1 => exact resOk_wake ih (fun h => (by cases h)) nb
      | ranEnd _ r h1 => exact resOk_wake ih (fun h => (by rcases ih.ran r _ h1 with h2 | h2 <;> simp_all)) nb
      | ranAgain _ r h1 => exact resOk_wake ih (fun h => (by rcases ih.ran r _ h1 with h2 | h2 <;> simp_all)) (fun _ _ h => (by cases h))
      | ranGone _ r h1 => exact resOk_wake ih (fun h => (by rcases ih.ran r _ h1 with h2 | h2 <;> simp_all)) nb
      | run _ h1 h2 => exact ⟨fun _ _ h => (by cases h), ih.ok⟩
      | _ => exact resOk_move ih (fun _ _ h => (by cases h))
  have aux2 : ∀ {s}, Reach k win drop s → s.finished + (if s.pc = .cb then 1 else 0) ≤ s.started := by
    intro s h
    induction h with
    | init => decide
    | @step l s t _ hs ih =>
      cases hs <;> simp_all [wakeup_pc, wakeup_finished, wakeup_started] <;> first | omega | (split <;> omega) | skip
  have h1 := (aux h).ok hr
  have h2 := aux2 h
  exact ⟨h1, by split at h2 <;> omega⟩

/-! ## Everybody is woken -/

/-- how far the timer is from its next result -/
def rank (s : St) : Nat :=
  (match s.pc with
    | .arm => 11 | .check => 10 | .hop => 9 | .registered => 8 | .disp => 7 | .post => 6 | .post2 => 5 | .queued => 4 | .run => 3 | .cb => 2
    | .ran _ _ => 1 | .over => 0) +
  (match s.c with | .idle => 2 | .set => 1 | .done => 0)

theorem rank_step {k : Kind} {win drop : Bool} {l : Lab} {s t : St} (hl : l ≠ .wait) (h : Step k win drop l s t) (hr : ∀ r a, s.pc = .ran r a → r ≠ .pending)
    (hp : t.hr = .pending) : rank t < rank s := by
  have hc : Hr.cancelled ≠ .pending := by decide
  cases h with
  | wait _ h1 => exact absurd rfl hl
  | waitNow _ h1 => exact absurd rfl hl
  | cancel _ h1 => simp [rank, h1]
  | cancelWake _ h1 h2 => exact absurd hp (wakeup_hr hc s)
  | checkCancel _ h1 h2 h3 => exact absurd hp (wakeup_hr hc s)
  | checkFail _ h1 h2 h3 => exact absurd hp (wakeup_hr (by decide) s)
  | clear _ h1 h2 h3 => exact absurd hp (wakeup_hr hc s)
  | clearLate _ h1 h2 h3 => exact absurd hp (wakeup_hr hc s)
  | dispCancel _ h1 h2 => exact absurd hp (wakeup_hr hc s)
  | dispGone _ h1 h2 => exact absurd hp (wakeup_hr hc s)
  | refuse _ h1 => exact absurd hp (wakeup_hr hc s)
  | cleanup _ h1 => exact absurd hp (wakeup_hr hc s)
  | ranEnd _ r h1 => exact absurd hp (wakeup_hr (hr r _ h1) s)
  | ranAgain _ r h1 => exact absurd hp (wakeup_hr (hr r _ h1) s)
  | ranGone _ r h1 => exact absurd hp (wakeup_hr (hr r _ h1) s)
  | unregister _ h0 h1 h2 => simp [rank, h1]
  | arm _ h1 _ => simp [rank, h1]
  | armProxy _ h1 _ => simp [rank, h1]
  | checkCancelProxy _ h1 _ _ => simp [rank, h1]
  | checkDue _ h1 _ _ => simp [rank, h1]
  | checkSet _ h1 _ => simp [rank, h1]
  | checkDisp _ h1 _ _ => simp [rank, h1]
  | checkRun _ h1 _ _ => simp [rank, h1]
  | checkHop _ h1 _ _ => simp [rank, h1]
  | hop _ h1 => simp [rank, h1]
  | hopRun _ h1 => simp [rank, h1]
  | hopDrop _ _ h1 => simp [rank, h1]
  | fire _ h1 _ => simp [rank, h1]
  | firePool _ h1 _ => simp [rank, h1]
  | disp _ h1 _ => simp [rank, h1]
  | post _ h1 => simp [rank, h1]
  | accept _ h1 => simp [rank, h1]
  | pop _ h1 => simp [rank, h1]
  | runCancel _ h1 _ => simp [rank, h1]
  | run _ h1 _ => simp [rank, h1]
  | cbOk _ a h1 => simp [rank, h1]
  | cbThrow _ h1 => simp [rank, h1]

theorem ran_res {k : Kind} {win drop : Bool} {s : St} (h : Reach k win drop s) : ∀ r a, s.pc = .ran r a → r ≠ .pending := by
  induction h with
  | init => intro r a h; cases h
  | @step l s t _ hs ih =>
    intro r a e
    cases hs with
    | cbOk _ b h1 => injection e with e1 e2; rw [← e1]; decide
    | cbThrow _ h1 => injection e with e1 e2; rw [← e1]; decide
    | cancelWake _ h1 h2 => simp only [wakeup_pc] at e; exact ih r a e
    | wait _ h1 => exact ih r a e
    | waitNow _ h1 => exact ih r a e
    | cancel _ h1 => exact ih r a e
    | _ => cases e

/-- **C87**: a result cannot stay open for more than 13 steps of the runner, the system and the canceller: what keeps a waiter waiting is only time and
scheduling (every runner, every interleaving) – or that there is nothing left to do, see `C87_woken_partial`. -/
theorem C87_bounded {k : Kind} {win drop : Bool} {s t : St} {n : Nat} (hs : Reach k win drop s) (h : Idle k win drop s n t) : n ≤ 13 := by
  have key : Reach k win drop t ∧ n + rank t ≤ rank s := by
    induction h with
    | refl => exact ⟨hs, by omega⟩
    | @wait s t u n _ h1 _ ih =>
      obtain ⟨i1, i2⟩ := ih hs
      refine ⟨.step i1 h1, ?_⟩
      cases h1 with
      | wait _ h => exact i2
      | waitNow _ h => exact i2
    | @move l s t u n _ hl h1 hp ih =>
      obtain ⟨i1, i2⟩ := ih hs
      have := rank_step hl h1 (ran_res i1) hp
      exact ⟨.step i1 h1, by omega⟩
  have : rank s ≤ 13 := by
    unfold rank
    cases s.pc <;> cases s.c <;> simp
  omega

/-- the invariant behind it: while the result is open, somebody is going to write it -/
structure Inv (k : Kind) (s : St) : Prop where
  /-- a canceller that has finished leaves an open result only to `SetTimerInternal`, which looks again -/
  done : s.c = .done → s.hr = .pending → s.pc = .check ∧ k ≠ .proxy
  idle : s.c = .idle → s.hr = .pending → s.pc ≠ .over
  post : s.pc = .post → s.c ≠ .done

theorem inv_step {k : Kind} {l : Lab} {s t : St} (h : Step k false false l s t) (i : Inv k s) (hr : ∀ r a, s.pc = .ran r a → r ≠ .pending) : Inv k t := by
  have hc : Hr.cancelled ≠ .pending := by decide
  have woke : ∀ (r : Hr) (p : Pc) (c : Canc), r ≠ .pending → p ≠ .post → Inv k { wakeup r s with pc := p, c := c } := fun r p c h1 h2 =>
    ⟨fun _ e => absurd e (wakeup_hr h1 s), fun _ e => absurd e (wakeup_hr h1 s), fun e => absurd e h2⟩
  have move : ∀ p, s.pc ≠ .check → p ≠ .post → p ≠ .over → Inv k { s with pc := p } := fun p h1 h2 h3 =>
    ⟨fun e1 e2 => absurd (i.done e1 e2).1 h1, fun _ _ => h3, fun e => absurd e h2⟩
  have notDone : s.canceled = false → s.c = .idle := by intro h; simpa [St.canceled] using h
  have checked : ∀ p, s.canceled = false → p ≠ .over → Inv k { s with pc := p } := fun p h1 h2 =>
    ⟨fun e => (by rw [notDone h1] at e; cases e), fun _ _ => h2, fun _ => (by rw [notDone h1]; decide)⟩
  cases h with
  | wait _ h1 => exact ⟨i.done, i.idle, i.post⟩
  | waitNow _ h1 => exact ⟨i.done, i.idle, i.post⟩
  | cancel _ h1 => exact ⟨fun e => (by cases e), fun e => (by cases e), fun _ e => (by cases e)⟩
  | cancelWake _ h1 h2 =>
    refine ⟨fun _ e => absurd e (wakeup_hr hc s), fun e => (by cases e), fun e => ?_⟩
    simp only [wakeup_pc] at e
    exact absurd e (h2 rfl)
  | unregister _ h0 h1 h2 =>
    have hni : s.c ≠ .idle := by simpa [St.canceled] using h2
    exact ⟨fun e1 e2 => (by have := (i.done e1 e2).1; rw [h1] at this; cases this), fun e => absurd e hni, fun e => (by cases e)⟩
  | arm _ h1 h2 => exact ⟨fun _ _ => ⟨rfl, h2⟩, fun _ _ e => (by cases e), fun e => (by cases e)⟩
  | armProxy _ h1 h2 =>
    refine ⟨fun e1 e2 => ?_, fun _ _ e => (by cases e), fun e => (by cases e)⟩
    have := (i.done e1 e2).1
    rw [h1] at this
    cases this
  | checkCancel _ h1 h2 h3 => exact woke _ _ _ hc (by decide)
  | checkCancelProxy _ h1 h2 h3 =>
    have hni : s.c ≠ .idle := by simpa [St.canceled] using h2
    exact ⟨fun e1 e2 => absurd h3 (i.done e1 e2).2, fun e => absurd e hni, fun e => (by cases e)⟩
  | checkDue _ h1 h2 h3 => exact checked _ h2 (by decide)
  | checkSet _ h1 h2 => exact checked _ h2 (by decide)
  | checkDisp _ h1 h2 h3 => exact checked _ h2 (by decide)
  | checkRun _ h1 h2 h3 => exact checked _ h2 (by decide)
  | checkFail _ h1 h2 h3 => exact woke _ _ _ (by decide) (by decide)
  | checkHop _ h1 h2 h3 => exact checked _ h2 (by decide)
  | hop _ h1 => exact move _ (by rw [h1]; decide) (by decide) (by decide)
  | hopRun _ h1 => exact move _ (by rw [h1]; decide) (by decide) (by decide)
  | hopDrop _ h0 h1 => cases h0
  | fire _ h1 h2 => exact move _ (by rw [h1]; decide) (by decide) (by decide)
  | firePool _ h1 h2 => exact move _ (by rw [h1]; decide) (by decide) (by decide)
  | clear _ h1 h2 h3 => exact woke _ _ _ hc (by decide)
  | clearLate _ h1 h2 h3 => exact woke _ _ _ hc (by decide)
  | dispCancel _ h1 h2 => exact woke _ _ _ hc (by decide)
  | dispGone _ h1 h2 => exact woke _ _ _ hc (by decide)
  | disp _ h1 h2 => exact checked _ h2 (by decide)
  | post _ h1 => exact ⟨fun e => absurd e (i.post h1), fun _ _ e => (by cases e), fun e => (by cases e)⟩
  | refuse _ h1 => exact woke _ _ _ hc (by decide)
  | accept _ h1 => exact move _ (by rw [h1]; decide) (by decide) (by decide)
  | pop _ h1 => exact move _ (by rw [h1]; decide) (by decide) (by decide)
  | cleanup _ h1 => exact woke _ _ _ hc (by decide)
  | runCancel _ h1 h2 =>
    have hni : s.c ≠ .idle := by simpa [St.canceled] using h2
    exact ⟨fun e1 e2 => (by have := (i.done e1 e2).1; rw [h1] at this; cases this), fun e => absurd e hni, fun e => (by cases e)⟩
  | run _ h1 h2 => exact ⟨fun e => (by rw [notDone h2] at e; cases e), fun _ _ e => (by cases e), fun e => (by cases e)⟩
  | cbOk _ a h1 => exact ⟨fun e1 e2 => (by have := (i.done e1 e2).1; rw [h1] at this; cases this), fun _ _ e => (by cases e), fun e => (by cases e)⟩
  | cbThrow _ h1 => exact move _ (by rw [h1]; decide) (by intro h; cases h) (by intro h; cases h)
  | ranEnd _ r h1 => exact woke _ _ _ (hr r _ h1) (by decide)
  | ranAgain _ r h1 => exact woke _ _ _ (hr r _ h1) (by decide)
  | ranGone _ r h1 => exact woke _ _ _ (hr r _ h1) (by decide)

theorem inv_reach {k : Kind} {s : St} (h : Reach k false false s) : Inv k s := by
  induction h with
  | init => exact ⟨fun e => (by cases e), fun _ _ e => (by cases e), fun e => (by cases e)⟩
  | step h1 hs ih => exact inv_step hs ih (ran_res h1)

/-- **C87**, partial: while a result is open, the library always has a step to make towards it, with or without a `Cancel`; with `C87_bounded` and
`C87_no_lost_wakeup`: everybody who waits is woken.  Missing: the window of `C87_window_fails`, the destroyed closure of `C87_drop_fails`. -/
theorem C87_woken_partial {k : Kind} {s : St} (h : Reach k false false s) (hp : s.hr = .pending) : ∃ t, Step k false false .work s t := by
  have i := inv_reach h
  cases hpc : s.pc with
  | over =>
    cases hc : s.c with
    | idle => exact absurd hpc (i.idle hc hp)
    | set => exact ⟨_, .cancelWake s hc (fun _ => (by rw [hpc]; decide))⟩
    | done => have := (i.done hc hp).1; rw [hpc] at this; cases this
  | arm =>
    by_cases hk : k = .proxy
    · exact ⟨_, .armProxy s hpc hk⟩
    · exact ⟨_, .arm s hpc hk⟩
  | check =>
    cases hc : s.canceled with
    | true =>
      by_cases hk : k = .proxy
      · exact ⟨_, .checkCancelProxy s hpc hc hk⟩
      · exact ⟨_, .checkCancel s hpc hc hk⟩
    | false => exact ⟨_, .checkSet s hpc hc⟩
  | hop => exact ⟨_, .hop s hpc⟩
  | registered =>
    by_cases hk : k = .pool
    · exact ⟨_, .firePool s hpc hk⟩
    · exact ⟨_, .fire s hpc hk⟩
  | disp =>
    cases hc : s.canceled with
    | true => exact ⟨_, .dispCancel s hpc hc⟩
    | false => exact ⟨_, .disp s hpc hc⟩
  | post => exact ⟨_, .post s hpc⟩
  | post2 => exact ⟨_, .accept s hpc⟩
  | queued => exact ⟨_, .pop s hpc⟩
  | run =>
    cases hc : s.canceled with
    | true => exact ⟨_, .runCancel s hpc hc⟩
    | false => exact ⟨_, .run s hpc hc⟩
  | cb => exact ⟨_, .cbThrow s hpc⟩
  | ran r a =>
    cases a with
    | true => exact ⟨_, .ranAgain s r hpc⟩
    | false => exact ⟨_, .ranEnd s r hpc⟩

/-- **C87**, partial: when the timer is over and the canceller done, the result is there.  Missing: as before. -/
theorem C87_result_partial {k : Kind} {s : St} (h : Reach k false false s) (ho : s.pc = .over) (hc : s.c ≠ .set) : s.hr ≠ .pending := by
  intro hp
  have i := inv_reach h
  cases hcc : s.c with
  | idle => exact i.idle hcc hp ho
  | set => exact hc hcc
  | done => have := (i.done hcc hp).1; rw [ho] at this; cases this

/-- **C87** (proxy of a foreign loop): the same without any restriction on the moment of the cancel. -/
theorem C87_proxy {s : St} (h : Reach .proxy true false s) (ho : s.pc = .over) (hc : s.c ≠ .set) : s.hr ≠ .pending := by
  have np : ∀ {s}, Reach .proxy true false s → s.pc ≠ .post ∧ s.pc ≠ .disp := by
    intro s h
    induction h with
    | init => decide
    | @step l s t _ hs ih =>
      cases hs <;> simp_all [wakeup_pc]
  have aux : ∀ {s}, Reach .proxy true false s → Reach .proxy false false s := by
    intro s h
    induction h with
    | init => exact .init
    | @step l s t h1 hs ih =>
      have hn := (np h1).1
      refine .step (l := l) ih ?_
      cases hs with
      | cancelWake _ a b => exact .cancelWake s a (fun _ => hn)
      | hopDrop _ a b => cases a
      | wait _ a => exact .wait s a
      | waitNow _ a => exact .waitNow s a
      | cancel _ a => exact .cancel s a
      | unregister _ a b c => exact .unregister s a b c
      | arm _ a b => exact .arm s a b
      | armProxy _ a b => exact .armProxy s a b
      | checkCancel _ a b c => exact .checkCancel s a b c
      | checkCancelProxy _ a b c => exact .checkCancelProxy s a b c
      | checkDue _ a b c => exact .checkDue s a b c
      | checkSet _ a b => exact .checkSet s a b
      | checkDisp _ a b c => exact .checkDisp s a b c
      | checkRun _ a b c => exact .checkRun s a b c
      | checkFail _ a b c => exact .checkFail s a b c
      | checkHop _ a b c => exact .checkHop s a b c
      | hop _ a => exact .hop s a
      | hopRun _ a => exact .hopRun s a
      | fire _ a b => exact .fire s a b
      | firePool _ a b => exact .firePool s a b
      | clear _ a b c => exact .clear s a b c
      | clearLate _ a b c => exact .clearLate s a b c
      | dispCancel _ a b => exact .dispCancel s a b
      | dispGone _ a b => exact .dispGone s a b
      | disp _ a b => exact .disp s a b
      | post _ a => exact .post s a
      | refuse _ a => exact .refuse s a
      | accept _ a => exact .accept s a
      | pop _ a => exact .pop s a
      | cleanup _ a => exact .cleanup s a
      | runCancel _ a b => exact .runCancel s a b
      | run _ a b => exact .run s a b
      | cbOk _ x a => exact .cbOk s x a
      | cbThrow _ a => exact .cbThrow s a
      | ranEnd _ r a => exact .ranEnd s r a
      | ranAgain _ r a => exact .ranAgain s r a
      | ranGone _ r a => exact .ranGone s r a
  exact C87_result_partial (aux h) ho hc

/-! ## Where the claim is not met -/

/-- nobody will ever write the result of `s` again -/
def Stuck (s : St) : Prop := s.pc = .over ∧ s.c = .done ∧ s.hr = .pending

theorem stuck_step {k : Kind} {win drop : Bool} {l : Lab} {s t : St} (h : Step k win drop l s t) (hs : Stuck s) :
    Stuck t ∧ s.waiting ≤ t.waiting ∧ t.returned = s.returned := by
  obtain ⟨h1, h2, h3⟩ := hs
  cases h with
  | wait _ h => exact ⟨⟨h1, h2, h3⟩, Nat.le_succ _, rfl⟩
  | waitNow _ h => exact absurd h3 h
  | cancel _ h => rw [h2] at h; cases h
  | cancelWake _ h => rw [h2] at h; cases h
  | _ => simp_all

theorem stuck_steps {k : Kind} {win drop : Bool} {s t : St} (h : Steps k win drop s t) (hs : Stuck s) : Stuck t ∧ s.waiting ≤ t.waiting := by
  induction h with
  | refl => exact ⟨hs, Nat.le_refl _⟩
  | tail _ h1 ih =>
    obtain ⟨j1, j2, _⟩ := stuck_step h1 (ih hs).1
    exact ⟨j1, Nat.le_trans (ih hs).2 j2⟩

/-- The window: the flag is tested, the timer is cancelled – its waiters are told –, then `PostTaskInternal` declares the result open again, and `RunTask`, which
sees the flag, returns without a word.  From then on everybody who waits for the cancelled timer waits for ever, on every kind of runner but the proxy. -/
theorem C87_window_fails (k : Kind) (hk : k ≠ .proxy) :
    ∃ s, Reach k true false s ∧ s.c = .done ∧ 0 < s.waiting ∧ ∀ t, Steps k true false s t → t.hr = .pending ∧ 0 < t.waiting := by
  have h0 : Reach k true false init := .init
  have h1 := Reach.step h0 (.arm _ rfl hk)
  have h2 := Reach.step h1 (.checkDue _ rfl rfl hk)
  have h3 := Reach.step h2 (.cancel _ rfl)
  have h4 := Reach.step h3 (.cancelWake _ rfl (fun h => by cases h))
  have h5 := Reach.step h4 (.post _ rfl)
  have h6 := Reach.step h5 (.accept _ rfl)
  have h7 := Reach.step h6 (.pop _ rfl)
  have h8 := Reach.step h7 (.runCancel _ rfl rfl)
  have h9 := Reach.step h8 (.wait _ rfl)
  refine ⟨_, h9, rfl, by decide, ?_⟩
  intro t ht
  have key := stuck_steps ht ⟨rfl, rfl, rfl⟩
  exact ⟨key.1.2.2, Nat.lt_of_lt_of_le (by decide) key.2⟩

/-- The destroyed closure: a timer made from another thread whose runner ends before it gets there is forgotten; its result stays open (until somebody cancels). -/
theorem C87_drop_fails (k : Kind) (hk : k ≠ .pool) :
    ∃ s, Reach k false true s ∧ s.pc = .over ∧ s.c = .idle ∧ s.hr = .pending ∧ 0 < s.waiting ∧ ∀ t, ¬ Step k false true .work s t := by
  have main : ∀ s1, Reach k false true s1 → s1.pc = .check → s1.c = .idle → s1.hr = .pending →
      ∃ s, Reach k false true s ∧ s.pc = .over ∧ s.c = .idle ∧ s.hr = .pending ∧ 0 < s.waiting ∧ ∀ t, ¬ Step k false true .work s t := by
    intro s1 h1 e1 e2 e3
    have h2 := Reach.step h1 (.checkHop _ e1 (by simp [St.canceled, e2]) hk)
    have h3 := Reach.step h2 (.hopDrop _ rfl rfl)
    have h4 := Reach.step h3 (.wait _ e3)
    refine ⟨_, h4, rfl, e2, e3, Nat.succ_pos _, ?_⟩
    intro t ht
    cases ht <;> simp_all [St.canceled]
  have h0 : Reach k false true init := .init
  by_cases hp : k = .proxy
  · exact main _ (Reach.step h0 (.armProxy _ rfl hp)) rfl rfl rfl
  · exact main _ (Reach.step h0 (.arm _ rfl hp)) rfl rfl rfl

/-! ## Example -/

/-- a repeating timer of the pool: it fires, is set again, somebody waits, it is cancelled in the queue: the waiter returns, the callback does not start again -/
theorem C87_example : ∃ s, Reach .pool false false s ∧ s.started = 1 ∧ s.returned = 1 ∧ s.hr = .cancelled ∧ s.pc = .over := by
  have h0 : Reach .pool false false init := .init
  have h1 := Reach.step h0 (.arm _ rfl (by decide))
  have h2 := Reach.step h1 (.checkSet _ rfl rfl)
  have h3 := Reach.step h2 (.firePool _ rfl rfl)
  have h4 := Reach.step h3 (.disp _ rfl rfl)
  have h5 := Reach.step h4 (.post _ rfl)
  have h6 := Reach.step h5 (.accept _ rfl)
  have h7 := Reach.step h6 (.pop _ rfl)
  have h8 := Reach.step h7 (.run _ rfl rfl)
  have h9 := Reach.step h8 (.cbOk _ true rfl)
  have h10 := Reach.step h9 (.ranAgain _ .ok rfl)
  have h11 := Reach.step h10 (.arm _ rfl (by decide))
  have h12 := Reach.step h11 (.checkDue _ rfl rfl (by decide))
  have h13 := Reach.step h12 (.post _ rfl)
  have h14 := Reach.step h13 (.accept _ rfl)
  have h15 := Reach.step h14 (.wait _ rfl)
  have h16 := Reach.step h15 (.cancel _ rfl)
  have h17 := Reach.step h16 (.cancelWake _ rfl (fun _ => by decide))
  have h18 := Reach.step h17 (.pop _ rfl)
  have h19 := Reach.step h18 (.runCancel _ rfl rfl)
  exact ⟨_, h19, rfl, rfl, rfl, rfl⟩

#print axioms C87_no_lost_wakeup
#print axioms C87_no_start
#print axioms C87_truthful
#print axioms C87_bounded
#print axioms C87_woken_partial
#print axioms C87_result_partial
#print axioms C87_proxy
#print axioms C87_window_fails
#print axioms C87_drop_fails
#print axioms C87_example

end Verif.TimerWait
