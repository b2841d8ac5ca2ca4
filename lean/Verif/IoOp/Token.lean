import Verif.IoOp.Props

/-! # Tokens set before the call (C68) -/
namespace Verif.IoOp

/-- `Resolve`, entered after the token was set, has not gone past the test at 564 -/
def Held (st : Status) : R → Prop
  | .chk | .cancel => True
  | .fin => st = .canceled
  | .cas | .store => False

structure TokInv (t : St) : Prop where
  tok : t.tok = true
  st : t.status ≠ .completed
  ini : ∀ o r, t.ini = .res o r → Held t.status r
  cb : ∀ r, t.cb = some r → Held t.status r
  fin : (∃ o, t.ini = .after o) ∨ t.ini = .ret ∨ t.ini = .done → t.status = .canceled

theorem cancelSt_of {s : St} (h : s.status ≠ .completed) : cancelSt s = .canceled := by
  unfold cancelSt
  cases hs : s.status <;> simp_all

theorem isCanceled_of {s : St} (h : s.status ≠ .completed) (ht : s.tok = true) : isCanceled s = true := by
  unfold isCanceled; rw [if_neg h, ht]; simp

theorem held_canceled {st : Status} {r : R} (h : Held st r) : Held .canceled r := by
  cases r <;> simp_all [Held]

/-- a step of `Resolve` after the token was set -/
theorem rstep_tok {s : St} {e : Nat} {r : R} (h : s.status ≠ .completed) (ht : s.tok = true) (hh : Held s.status r) (hf : r ≠ .fin) :
    Held (rstep s e r).2.1 (rstep s e r).1 ∧ (rstep s e r).2.1 ≠ .completed ∧
      ((rstep s e r).2.1 = s.status ∨ (rstep s e r).2.1 = .canceled) := by
  cases r with
  | chk => simp [rstep, isCanceled_of h ht, Held, h]
  | cancel => simp [rstep, cancelSt_of h, Held]
  | cas => exact hh.elim
  | store => exact hh.elim
  | fin => exact absurd rfl hf

theorem tokInv_step {v : Env} {s u : St} (i : TokInv s) (st : Step v s u) : TokInv u := by
  obtain ⟨h1, h2, h3, h4, h5⟩ := i
  have hc := cancelSt_of h2
  have hi := isCanceled_of h2 h1
  cases st with
  | token => exact ⟨rfl, h2, h3, h4, h5⟩
  | early a b => exact ⟨h1, by simp [hc], by simp, fun r h => by simp only [hc]; exact held_canceled (h4 r h), fun _ => hc⟩
  | sync n a => exact ⟨h1, h2, by intro o r h; cases h; trivial, h4, by simp⟩
  | pend a => exact ⟨h1, h2, by simp, h4, by simp⟩
  | fail e a b => exact ⟨h1, h2, by intro o r h; cases h; trivial, h4, by simp⟩
  | warn e n w a b => exact ⟨h1, h2, by intro o r h; cases h; trivial, h4, by simp⟩
  | iniRes o r a b =>
    obtain ⟨k1, k2, k3⟩ := rstep_tok (e := outCode o) h2 h1 (h3 o r a) b
    refine ⟨h1, k2, ?_, ?_, by simp⟩
    · intro o' r' h; cases h; exact k1
    · intro r' h
      show Held (rstep s (outCode o) r).2.1 r'
      rcases k3 with k | k <;> rw [k]
      · exact h4 r' h
      · exact held_canceled (h4 r' h)
  | iniFin o a => exact ⟨h1, h2, by simp, h4, fun _ => h3 o .fin a⟩
  | iniRel o a b => exact ⟨h1, h2, by simp, h4, fun _ => h5 (.inl ⟨o, a⟩)⟩
  | iniKeep o a b => exact ⟨h1, h2, by simp, h4, fun _ => h5 (.inl ⟨o, a⟩)⟩
  | armCancel a b => exact ⟨h1, by simp [hc], by simp, fun r h => by simp only [hc]; exact held_canceled (h4 r h), fun _ => hc⟩
  | armGo a b => rw [hi] at b; cases b
  | ret a => exact ⟨h1, h2, by simp, h4, fun _ => h5 (.inr (.inl a))⟩
  | complete e n a => exact ⟨h1, h2, h3, h4, h5⟩
  | deliver a => exact ⟨h1, h2, h3, by intro r h; cases h; trivial, h5⟩
  | cbRes r e n a b c =>
    obtain ⟨k1, k2, k3⟩ := rstep_tok (e := e) h2 h1 (h4 r a) b
    refine ⟨h1, k2, ?_, by intro r' h; cases h; exact k1, ?_⟩
    · intro o' r' h
      show Held (rstep s e r).2.1 r'
      rcases k3 with k | k <;> rw [k]
      · exact h3 o' r' h
      · exact held_canceled (h3 o' r' h)
    · intro h
      show (rstep s e r).2.1 = .canceled
      rcases k3 with k | k
      · rw [k]; exact h5 h
      · exact k
  | cbEnd a => exact ⟨h1, h2, h3, by simp, h5⟩
  | dup a => exact ⟨h1, h2, h3, h4, h5⟩
  | drop a => exact ⟨h1, h2, h3, h4, h5⟩
  | cancel a =>
    exact ⟨h1, by simp [hc], fun o r h => by simp only [hc]; exact held_canceled (h3 o r h),
      fun r h => by simp only [hc]; exact held_canceled (h4 r h), fun _ => hc⟩

theorem start_status {v : Env} {s : St} (r : Reach v s) (h : s.ini = .start) : s.status = .started := by
  induction r with
  | init => rfl
  | @step s u r st ih =>
    cases st with
    | token => exact ih h
    | complete e n a => exact ih h
    | deliver a => exact ih h
    | cbRes q e n a b c => have := (at_start r h).2.2.1; rw [a] at this; cases this
    | cbEnd a => exact ih h
    | dup a => exact ih h
    | drop a => exact ih h
    | cancel a => have := (at_start r h).2.1; omega
    | _ => cases h

/-- **C68**: if the token is set when the request is handed to the system – or when the initiating thread has not yet looked at it and no packet
is being processed –, the operation never completes, whatever the system does, and it is cancelled when `ReadAsync` returns. -/
theorem C68_token {v : Env} {s t : St} (r : Reach v s) (ht : s.tok = true) (hi : s.ini = .start ∨ (s.ini = .arm ∧ s.cb = none ∧ s.status ≠ .completed))
    (st : Steps v s t) : t.status ≠ .completed ∧ (t.ini = .done → t.status = .canceled) := by
  have h0 : TokInv s := by
    rcases hi with hi | ⟨hi, hc, hs⟩
    · obtain ⟨a1, a2, a3, a4, a5⟩ := at_start r hi
      have hs : s.status = .started := start_status r hi
      exact ⟨ht, by simp [hs], by simp [hi], by simp [a3], by simp [hi]⟩
    · exact ⟨ht, hs, by simp [hi], by simp [hc], by simp [hi]⟩
  have : TokInv t := by
    clear hi ht r
    induction st with
    | refl => exact h0
    | tail _ s ih => exact tokInv_step ih s
  exact ⟨this.st, fun h => this.fin (.inr (.inr h))⟩

/-- Case: the token is set while the request is pending and `ReadAsync` has not looked at it; the system completes the request with 5 bytes, and
the packet is delivered before `ReadAsync` goes on. -/
theorem C68_token_example : ∃ s t, Reach ⟨true, true, false⟩ s ∧ s.tok = true ∧ s.ini = .arm ∧ s.cb = none ∧ s.status = .started ∧
    Steps ⟨true, true, false⟩ s t ∧ t.ini = .done ∧ t.res = some (0, 5) ∧ t.cb = some .fin := by
  have r1 := Reach.step (v := ⟨true, true, false⟩) .init (Step.pend _ rfl)
  have r2 := r1.step (Step.token _)
  have t1 := (Steps.refl (v := ⟨true, true, false⟩) _).tail (Step.complete { ini := .arm, kern := .pending, ref := 2, tok := true } 0 5 rfl)
  have t2 := t1.tail (Step.deliver _ rfl)
  have t3 := t2.tail (Step.cbRes _ .chk 0 5 rfl (by simp) rfl)
  have t4 := t3.tail (Step.cbRes _ .cancel 0 5 rfl (by simp) rfl)
  have t5 := t4.tail (Step.armCancel _ rfl rfl)
  have t6 := t5.tail (Step.ret _ rfl)
  exact ⟨_, _, r2, rfl, rfl, rfl, rfl, t6, rfl, rfl, rfl⟩

#print axioms C68_token
#print axioms C68_token_example

end Verif.IoOp
