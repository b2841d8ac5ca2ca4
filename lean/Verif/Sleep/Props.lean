import Verif.Sleep.Model
/-!
# C100: a sleep ends with the right result, at the right time, and everybody waiting goes on
-/
namespace Verif.Sleep

/-- what the task may look like, for a call at time `c` with delay `d`: given when it was called -/
structure Right (c d : Nat) (token : Option Bool) (runner : Option Bool) (s : St) : Prop where
  /-- no time is skipped backwards -/
  time : c ≤ s.clock
  /-- there are exactly four forms: open, slept, no runner, cancelled -/
  form : (s.status = .started ∧ s.hr = .pending ∧ s.val = none ∧ s.notified = false)
    ∨ (s.status = .completed ∧ s.hr = .ok ∧ s.val = some .ok ∧ s.notified = true ∧ c + d ≤ s.clock ∧ runner.isSome)
    ∨ (s.status = .completed ∧ s.hr = .ok ∧ s.val = some .unexpected ∧ s.notified = true ∧ runner = none ∧ token ≠ some true)
    ∨ (s.status = .canceled ∧ s.hr = .cancelled ∧ s.val = none ∧ s.notified = true)

/-- the timer belongs to the call -/
def TimerOk (c d : Nat) (runner : Option Bool) (s : St) : Prop :=
  (∀ due, s.timer = .armed due → due = c + d) ∧ (s.timer = .queued → c + d ≤ s.clock) ∧ (s.timer ≠ .gone → runner.isSome)

theorem cancel_form {s : St} : (cancel s).clock = s.clock ∧ (cancel s).timer = s.timer ∧ (cancel s).up = s.up ∧ (cancel s).token = s.token
    ∧ (cancel s).waiter = s.waiter := by
  unfold cancel; split <;> simp

theorem resolve_form {s : St} {v : Val} : (resolve s v).clock = s.clock ∧ (resolve s v).timer = s.timer ∧ (resolve s v).up = s.up
    ∧ (resolve s v).token = s.token ∧ (resolve s v).waiter = s.waiter := by
  unfold resolve; split
  · exact cancel_form
  · split <;> simp

theorem inv_start (c d : Nat) (token runner : Option Bool) :
    Right c d token runner (sleep c d token runner) ∧ TimerOk c d runner (sleep c d token runner) := by
  unfold sleep
  split
  · refine ⟨⟨by simp [cancel, fresh], by simp [cancel, fresh]⟩, by simp [TimerOk, cancel, fresh]⟩
  · rename_i ht
    cases runner with
    | none =>
      have hr : requested (fresh c token false) = false := by simpa [requested, fresh] using ht
      refine ⟨⟨by simp [resolve_form.1, fresh], ?_⟩, by simp [TimerOk, resolve_form.2.1, fresh]⟩
      have : resolve (fresh c token false) .unexpected = { fresh c token false with status := .completed, hr := .ok, val := some .unexpected, notified := true } := by
        simp [resolve, isCanceled, hr]; simp [fresh]
      rw [this]
      exact Or.inr (Or.inr (Or.inl ⟨rfl, rfl, rfl, rfl, rfl, ht⟩))
    | some up =>
      by_cases d0 : d = 0
      · subst d0; cases up <;> simp [postDelay, fresh, TimerOk] <;> exact ⟨by simp, by simp⟩
      · simp [postDelay, d0, fresh, TimerOk]; exact ⟨by simp, by simp⟩

theorem inv_step {c d : Nat} {token runner : Option Bool} {s t : St} (h : Step s t) (hi : Right c d token runner s ∧ TimerOk c d runner s) :
    Right c d token runner t ∧ TimerOk c d runner t := by
  obtain ⟨⟨h1, h2⟩, h3, h4, h5⟩ := hi
  cases h with
  | tick =>
    refine ⟨⟨by simp; omega, ?_⟩, h3, fun h => by have := h4 h; simp; omega, h5⟩
    rcases h2 with h | h | h | h
    · exact Or.inl h
    · exact Or.inr (Or.inl ⟨h.1, h.2.1, h.2.2.1, h.2.2.2.1, by have := h.2.2.2.2.1; simp; omega, h.2.2.2.2.2⟩)
    · exact Or.inr (Or.inr (Or.inl h))
    · exact Or.inr (Or.inr (Or.inr h))
  | token => exact ⟨⟨h1, h2⟩, h3, h4, h5⟩
  | cancel =>
    obtain ⟨e1, e2, _⟩ := cancel_form (s := s)
    refine ⟨⟨by rw [e1]; exact h1, ?_⟩, by rw [e2]; exact h3, by rw [e1, e2]; exact h4, by rw [e2]; exact h5⟩
    unfold cancel
    split
    · rcases h2 with h | h | h | h
      · exact Or.inr (Or.inr (Or.inr ⟨rfl, rfl, h.2.2.1, rfl⟩))
      all_goals (rename_i hs; rw [h.1] at hs; cases hs)
    · exact h2
  | stop => exact ⟨⟨h1, h2⟩, h3, h4, h5⟩
  | fire due ht hd =>
    refine ⟨⟨h1, h2⟩, ?_, ?_, ?_⟩
    · intro x hx; cases hu : s.up <;> simp [hu] at hx
    · intro _; have := h3 _ ht; simp; omega
    · intro _; exact h5 (by rw [ht]; simp)
  | cleanup ht hu => exact ⟨⟨h1, h2⟩, by intro x h; simp at h, by intro h; simp at h, fun h => absurd rfl h⟩
  | drop due ht hu => exact ⟨⟨h1, h2⟩, by intro x h; simp at h, by intro h; simp at h, fun h => absurd rfl h⟩
  | run ht =>
    obtain ⟨e1, e2, _⟩ := resolve_form (s := { s with timer := .gone }) (v := .ok)
    have hc := h4 ht
    have hr := h5 (by rw [ht]; simp)
    refine ⟨⟨by rw [e1]; exact h1, ?_⟩, by rw [e2]; intro x h; simp at h, by rw [e2]; intro h; simp at h, by rw [e2]; exact fun h => absurd rfl h⟩
    unfold resolve
    split
    · unfold cancel
      split
      · rcases h2 with h | h | h | h
        · exact Or.inr (Or.inr (Or.inr ⟨rfl, rfl, h.2.2.1, rfl⟩))
        all_goals (rename_i hs; rw [show s.status = .started from hs] at h; exact absurd h.1 (by simp))
      · exact h2
    · split
      · exact Or.inr (Or.inl ⟨rfl, rfl, rfl, rfl, hc, hr⟩)
      · exact h2
  | wait t ht => exact ⟨⟨h1, h2⟩, h3, h4, h5⟩
  | wake t ht hh => exact ⟨⟨h1, h2⟩, h3, h4, h5⟩

theorem inv {c d : Nat} {token runner : Option Bool} {s : St} (h : Steps (sleep c d token runner) s) :
    Right c d token runner s ∧ TimerOk c d runner s := by
  generalize hs : sleep c d token runner = s0 at h
  induction h with
  | refl => subst hs; exact inv_start c d token runner
  | tail _ h ih => subst hs; exact inv_step h ih

/-- C100: whatever happens, the task is open, or it says S_OK and the delay is over, or it says E_UNEXPECTED and there was no runner, or it is cancelled. -/
theorem C100_right {c d : Nat} {token runner : Option Bool} {s : St} (h : Steps (sleep c d token runner) s) : Right c d token runner s := (inv h).1

theorem token_step {s t : St} (h : Step s t) (hr : requested s = true) : requested t = true ∧ (s.status ≠ .completed → t.status ≠ .completed) := by
  cases h with
  | tick | token | stop | fire | cleanup | drop | wait | wake => exact ⟨by first | rfl | exact hr, id⟩
  | cancel =>
    refine ⟨by unfold requested; rw [cancel_form.2.2.2.1]; exact hr, ?_⟩
    unfold cancel; split
    · intro _; simp
    · exact id
  | run ht =>
    refine ⟨by unfold requested; rw [resolve_form.2.2.2.1]; exact hr, ?_⟩
    intro hs
    have hc : isCanceled { s with timer := .gone } = true := by simp [isCanceled, hs]; right; exact hr
    unfold resolve; rw [if_pos hc]; unfold cancel; split
    · simp
    · exact hs

/-- C100: once the token is cancelled the sleep cannot succeed any more: it stays what it is or becomes cancelled, every `IsCanceled` says so, and every
`WaitTask` begun from now on returns false at once. -/
theorem C100_token {s t : St} (hr : requested s = true) (hs : s.status ≠ .completed) (h : Steps s t) :
    t.status ≠ .completed ∧ isCanceled t = true := by
  have : requested t = true ∧ t.status ≠ .completed := by
    induction h with
    | refl => exact ⟨hr, hs⟩
    | tail _ h ih => exact ⟨(token_step h ih.1).1, (token_step h ih.1).2 ih.2⟩
  exact ⟨this.2, by simp [isCanceled, this.2, this.1]⟩

/-- C100 (partial: the runner goes on; the token does not wake anybody, see `C100_token_fails`): as long as the task is open, its timer is on its way: armed, or
in the queue; when the delay is over the task ends within two steps. -/
theorem C100_ends_partial {c d : Nat} {token runner : Option Bool} {s : St} (h : Steps (sleep c d token runner) s) (hu : s.up = true) (ho : s.status = .started) :
    (s.timer = .armed (c + d) ∨ (s.timer = .queued ∧ c + d ≤ s.clock))
    ∧ (c + d ≤ s.clock → ∃ t, Steps s t ∧ t.status ≠ .started ∧ t.notified = true ∧ t.hr ≠ .pending ∧ t.clock = s.clock) := by
  have key : s.up = true → s.status = .started → s.timer ≠ .gone := by
    clear hu ho
    generalize hs : sleep c d token runner = s0 at h
    induction h with
    | refl =>
      subst hs; unfold sleep
      split
      · intro _ h; simp [cancel, fresh] at h
      · rename_i ht
        cases runner with
        | none => intro h; rw [resolve_form.2.2.1] at h; simp [fresh] at h
        | some up => dsimp only; unfold postDelay; cases up <;> split <;> simp [fresh]
    | @tail y z _ h ih =>
      cases h with
      | tick | token | wait | wake => exact ih
      | cancel =>
        rw [cancel_form.2.1, cancel_form.2.2.1]
        intro hu ho
        refine ih hu ?_
        unfold cancel at ho; split at ho
        · cases ho
        · exact ho
      | stop => intro h; cases h
      | fire due ht hd => intro hu _; simp only at hu ⊢; rw [hu]; simp
      | cleanup ht hu' => intro hu _; simp only at hu; rw [hu'] at hu; cases hu
      | drop due ht hu' => intro hu _; simp only at hu; rw [hu'] at hu; cases hu
      | run ht =>
        intro _ ho
        exfalso
        unfold resolve at ho; split at ho
        · rename_i hc
          unfold cancel at ho; split at ho
          · cases ho
          · rename_i hn; exact hn ho
        · split at ho
          · cases ho
          · rename_i hn; exact hn ho
  have hk := key hu ho
  obtain ⟨hR, h3, h4, h5⟩ := inv h
  have ht : s.timer = .armed (c + d) ∨ (s.timer = .queued ∧ c + d ≤ s.clock) := by
    cases e : s.timer with
    | gone => exact absurd e hk
    | armed x => left; rw [h3 x e]
    | queued => exact Or.inr ⟨rfl, h4 e⟩
  refine ⟨ht, fun hc => ?_⟩
  have fin : ∀ s' : St, s'.timer = .queued → s'.status = .started → ∃ t, Steps s' t ∧ t.status ≠ .started ∧ t.notified = true ∧ t.hr ≠ .pending ∧ t.clock = s'.clock := by
    intro s' hq hst
    refine ⟨_, .tail (.refl _) (.run s' hq), ?_⟩
    rw [resolve_form.1]
    unfold resolve cancel
    split
    · simp [hst]
    · simp [hst]
  rcases ht with ha | ⟨hq, _⟩
  · obtain ⟨t, p1, p2⟩ := fin { s with timer := if s.up then .queued else .gone } (by simp [hu]) ho
    refine ⟨t, ?_, p2⟩
    have q : Steps s { s with timer := if s.up then .queued else .gone } := .tail (.refl _) (.fire s (c + d) ha hc)
    clear p2
    induction p1 with
    | refl => exact q
    | tail _ h ih => exact .tail ih h
  · exact fin s hq ho

/-- executions without anybody calling `Cancel` on the task itself -/
inductive Quiet : St → St → Prop
  | refl (s : St) : Quiet s s
  | tail {s t u : St} : Quiet s t → Step t u → (u = cancel t → u = t) → Quiet s u

/-- C100 is false for the waiters of a cancelled token: cancelling the token wakes nobody. Who was asleep stays asleep, and no continuation or coroutine goes on,
until the whole delay is over. -/
theorem C100_token_fails {c d w : Nat} {token : Option Bool} {up : Bool} {s t : St} (h : Steps (sleep c d token (some up)) s) (ho : s.status = .started)
    (hr : requested s = true) (hw : s.waiter w = .asleep) (q : Quiet s t) (hc : t.clock < c + d) :
    t.waiter w = .asleep ∧ t.notified = false ∧ t.status = .started := by
  have main : Steps (sleep c d token (some up)) t ∧ t.waiter w = .asleep ∧ t.status = .started := by
    induction q with
    | refl => exact ⟨h, hw, ho⟩
    | @tail y z _ st qu ih =>
      have hy : y.clock ≤ z.clock := by
        cases st with
        | tick => exact Nat.le_succ _
        | cancel => rw [cancel_form.1]; exact Nat.le_refl _
        | run => rw [resolve_form.1]; exact Nat.le_refl _
        | _ => exact Nat.le_refl _
      obtain ⟨i1, i2, i3⟩ := ih (by omega)
      refine ⟨.tail i1 st, ?_⟩
      obtain ⟨⟨_, f⟩, _, g4, _⟩ := inv i1
      have hp : y.hr = .pending := by
        rcases f with f | f | f | f
        · exact f.2.1
        all_goals (rw [i3] at f; exact absurd f.1 (by simp))
      cases st with
      | tick | token | stop | fire | cleanup | drop => exact ⟨i2, i3⟩
      | cancel => rw [qu rfl]; exact ⟨i2, i3⟩
      | run ht => exfalso; have := g4 ht; omega
      | wait t ht =>
        refine ⟨?_, i3⟩
        by_cases e : w = t
        · subst e; rw [i2] at ht; cases ht
        · simp [e, i2]
      | wake t ht hh => exact absurd hp hh
  refine ⟨main.2.1, ?_, main.2.2⟩
  obtain ⟨⟨_, f⟩, _⟩ := inv main.1
  rcases f with f | f | f | f
  · exact f.2.2.2
  all_goals (rw [main.2.2] at f; exact absurd f.1 (by simp))

/-- C100 is false on a runner that stops: when the timer is gone and the task is open, nothing but `Cancel` on the task ends it, ever; whoever waits, waits for ever. -/
theorem C100_stop_fails {c d w : Nat} {token runner : Option Bool} {s t : St} (h : Steps (sleep c d token runner) s) (ho : s.status = .started) (hg : s.timer = .gone)
    (hw : s.waiter w = .asleep) (q : Quiet s t) : t.waiter w = .asleep ∧ t.notified = false ∧ t.status = .started := by
  have main : Steps (sleep c d token runner) t ∧ t.waiter w = .asleep ∧ t.status = .started ∧ t.timer = .gone := by
    induction q with
    | refl => exact ⟨h, hw, ho, hg⟩
    | @tail y z _ st qu ih =>
      obtain ⟨i1, i2, i3, i4⟩ := ih
      refine ⟨.tail i1 st, ?_⟩
      obtain ⟨⟨_, f⟩, _⟩ := inv i1
      have hp : y.hr = .pending := by
        rcases f with f | f | f | f
        · exact f.2.1
        all_goals (rw [i3] at f; exact absurd f.1 (by simp))
      cases st with
      | tick | token | stop => exact ⟨i2, i3, i4⟩
      | fire due ht => rw [i4] at ht; cases ht
      | cleanup ht => rw [i4] at ht; cases ht
      | drop due ht => rw [i4] at ht; cases ht
      | cancel => rw [qu rfl]; exact ⟨i2, i3, i4⟩
      | run ht => rw [i4] at ht; cases ht
      | wait t ht =>
        refine ⟨?_, i3, i4⟩
        by_cases e : w = t
        · subst e; rw [i2] at ht; cases ht
        · simp [e, i2]
      | wake t ht hh => exact absurd hp hh
  refine ⟨main.2.1, ?_, main.2.2.1⟩
  obtain ⟨⟨_, f⟩, _⟩ := inv main.1
  rcases f with f | f | f | f
  · exact f.2.2.2
  all_goals (rw [main.2.2.1] at f; exact absurd f.1 (by simp))

/-- For every delay there is an execution that gets there: somebody waits, the runner stops, the timer is thrown away. -/
theorem C100_stop_reached (c d w : Nat) (token : Option Bool) (ht : token ≠ some true) (hd : d ≠ 0) :
    ∃ s, Steps (sleep c d token (some true)) s ∧ s.status = .started ∧ s.timer = .gone ∧ s.waiter w = .asleep := by
  have e : sleep c d token (some true) = { fresh c token true with timer := .armed (c + d) } := by
    simp [sleep, ht, postDelay, hd]; simp [fresh]
  rw [e]
  refine ⟨_, .tail (.tail (.tail (.refl _) (.wait _ w rfl)) (.stop _)) (.drop _ (c + d) rfl rfl), rfl, rfl, ?_⟩
  simp [isCanceled, requested, fresh, ht]

/-- a runner that is stopped already refuses a sleep of less than a millisecond: the task never ends -/
theorem C100_refused_reached (c w : Nat) (token : Option Bool) (ht : token ≠ some true) :
    ∃ s, Steps (sleep c 0 token (some false)) s ∧ s.status = .started ∧ s.timer = .gone ∧ s.waiter w = .asleep := by
  have e : sleep c 0 token (some false) = fresh c token false := by
    simp [sleep, ht, postDelay, fresh]
  rw [e]
  refine ⟨_, .tail (.refl _) (.wait _ w rfl), rfl, rfl, ?_⟩
  simp [isCanceled, requested, fresh, ht]

/-- An example of a good run: a sleep of 2 ms without token, on a runner, ends with S_OK, and the waiter comes back with true. -/
theorem C100_example : ∃ s, Steps (sleep 10 2 none (some true)) s ∧ s.val = some .ok ∧ s.waiter 0 = .back true ∧ s.clock = 12 := by
  refine ⟨_, .tail (.tail (.tail (.tail (.tail (.tail (.refl _) (.wait _ 0 rfl)) (.tick _)) (.tick _)) (.fire _ 12 rfl (by decide))) (.run _ rfl)) (.wake _ 0 rfl (by decide)), rfl, rfl, rfl⟩

/-- An example of the hypotheses of `C100_token_fails`: a sleep of an hour with a token, somebody asleep in `WaitTask`, the token cancelled. -/
theorem C100_token_example : ∃ s, Steps (sleep 0 3600000 (some false) (some true)) s ∧ s.status = .started ∧ requested s = true ∧ s.waiter 0 = .asleep := by
  refine ⟨_, .tail (.tail (.refl _) (.wait _ 0 rfl)) (.token _ rfl), rfl, rfl, rfl⟩

/-- C100: a `WaitTask` that says false is right: the sleep has not succeeded then or later; it is cancelled, or its token is. -/
theorem C100_false {c d w : Nat} {token runner : Option Bool} {s : St} (h : Steps (sleep c d token runner) s) (hw : s.waiter w = .back false) :
    s.status ≠ .completed ∧ (s.status = .canceled ∨ s.token = some true) := by
  have st : ∀ x : St, x = sleep c d token runner → x.waiter w = .idle := by
    intro x hx; subst hx; unfold sleep
    split
    · rw [cancel_form.2.2.2.2]; rfl
    · split
      · rw [resolve_form.2.2.2.2]; rfl
      · unfold postDelay; repeat' split
        all_goals rfl
  generalize hs : sleep c d token runner = s0 at h
  induction h with
  | refl => have := st _ hs.symm; rw [this] at hw; cases hw
  | @tail y z _ h ih =>
    cases h with
    | tick | stop | fire | cleanup | drop => exact ih hw
    | token => exact ⟨(ih hw).1, .inr rfl⟩
    | cancel =>
      rw [cancel_form.2.2.2.2] at hw
      have := ih hw
      unfold cancel; split
      · exact ⟨by simp, .inl rfl⟩
      · exact this
    | run ht =>
      rw [resolve_form.2.2.2.2] at hw
      obtain ⟨i1, i2⟩ := ih hw
      have hc : isCanceled { y with timer := .gone } = true := by
        unfold isCanceled requested; rw [if_neg i1]
        rcases i2 with e | e <;> simp [e]
      unfold resolve; rw [if_pos hc]; unfold cancel; split
      · exact ⟨by simp, .inl rfl⟩
      · exact ⟨i1, i2⟩
    | wait t ht =>
      by_cases e : w = t
      · subst e
        simp only [if_true] at hw
        show y.status ≠ _ ∧ (y.status = _ ∨ y.token = _)
        by_cases hc : isCanceled y = true
        · unfold isCanceled requested at hc
          split at hc
          · cases hc
          · rename_i hn
            refine ⟨hn, ?_⟩
            rw [Bool.or_eq_true] at hc
            simpa using hc
        · rw [if_neg hc] at hw
          split at hw <;> cases hw
      · simp only [e, if_false] at hw; exact ih hw
    | wake t ht hh =>
      by_cases e : w = t
      · subst e; simp at hw
      · simp only [e, if_false] at hw; exact ih hw

end Verif.Sleep
