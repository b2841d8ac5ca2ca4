import Verif.ThreadRunner.Ends

/-! # `Interrupt` (C65) -/
namespace Verif.ThreadRunner

inductive Steps (bg : Bool) (E : Env) (s : St) : St → Prop
  | refl : Steps bg E s s
  | step {a b : St} : Steps bg E s a → Step bg E a b → Steps bg E s b

/-- between the test of the interrupt bit and `Pop` -/
def PastTest (bg : Bool) (p : RPC) : Prop := p = .pop ∨ (bg = false ∧ p = .dec)

/-- after `Interrupt`: how many more tasks may start -/
structure Halted (bg : Bool) (n : Nat) (t : St) : Prop where
  intr : t.word.intr = true
  len : t.started.length ≤ n
  past : PastTest bg t.pc → t.started.length < n

theorem halted_pc {bg : Bool} {n : Nat} {s s' : St} (h : Halted bg n s) (hw : s'.word.intr = true) (hl : s'.started = s.started)
    (hp : PastTest bg s'.pc → PastTest bg s.pc) : Halted bg n s' :=
  ⟨hw, by rw [hl]; exact h.len, fun p => by rw [hl]; exact h.past (hp p)⟩

theorem past_resume (bg : Bool) (l : List Frame) : ¬ PastTest bg (resume l) := by
  unfold PastTest resume
  split <;> simp

theorem halted_step {bg : Bool} {E : Env} {n : Nat} {s s' : St} (hI : InvA s) (h : Halted bg n s) (hc : s'.cleaned = false) (hs : Step bg E s s') :
    Halted bg n s' := by
  have lockd : ∀ {i : Nat} {p : PC}, s.threads[i]? = some p → isProd p = 1 → s.cleaned = false → s.word.lock = true := by
    intro i p h hp hc
    have := (sums_of h .idle).lp
    have := hI.lock hc
    cases hl : s.word.lock with
    | true => rfl
    | false => rw [hl, show false.toNat = 0 from rfl] at this; omega
  have h1 := h.intr
  cases hs with
  | refuse => exact h
  | add i h0 hb => exact halted_pc h (by show s.word.add15.intr = true; rw [add15_locked (lockd h0 rfl hc) hb]; exact h1) rfl id
  | addEarly i r h0 hb => exact halted_pc h (by show s.word.add15.intr = true; rw [add15_locked (lockd h0 rfl hc) hb]; exact h1) rfl id
  | interrupt => exact halted_pc h rfl rfl id
  | pop t q h0 hq =>
    have := h.past (.inl h0)
    refine ⟨h1, ?_, fun p => ?_⟩
    · show (s.started ++ [t]).length ≤ n
      simp; omega
    · dsimp only at p; unfold PastTest at p; simp at p
  | leave h0 hl => rw [h1] at hl; exact absurd hl.2.1 nofun
  | leaveClean h0 => exact absurd hc nofun
  | cleanEnd h0 hq => exact halted_pc h rfl rfl (fun p => absurd p (past_resume bg _))
  | chk h0 => exact halted_pc h h1 rfl (fun p => by simp [PastTest, h1] at p)
  | drainChk h0 => exact halted_pc h h1 rfl (fun p => by simp [PastTest, h1] at p)
  | popChk h0 => exact halted_pc h h1 rfl (fun p => by simp [PastTest, h1] at p)
  | decRun h0 hp =>
    refine halted_pc h h1 rfl (fun p => ?_)
    cases bg with
    | true => simp [PastTest, afterDecRun] at p
    | false => exact .inr ⟨rfl, h0⟩
  | peekChk h0 => exact halted_pc h h1 rfl (fun p => by dsimp only at p; split at p <;> simp [PastTest] at p)
  | cbEnd k h0 =>
    refine halted_pc h h1 rfl (fun p => ?_)
    cases bg <;> cases k <;> simp [PastTest, afterCb, afterStart] at p
  | sub h0 hp =>
    refine halted_pc h h1 rfl (fun p => ?_)
    dsimp only [afterSub] at p
    cases bg <;> split at p <;> simp [PastTest] at p
  | _ =>
    first
      | exact halted_pc h h1 rfl id
      | (refine halted_pc h h1 rfl (fun p => ?_)
         cases bg <;> simp [PastTest, afterStart, afterLoad, afterDecIdle, afterTimers, afterSub0, afterRun] at p)

theorem cleaned_step {bg : Bool} {E : Env} {s s' : St} (hs : Step bg E s s') (hc : s'.cleaned = false) : s.cleaned = false := by
  cases hs <;> first | exact hc | exact absurd hc nofun

theorem halted_steps {bg : Bool} {E : Env} {n : Nat} {s t : St} (r : Reach bg E s) (h0 : Halted bg n s) (h : Steps bg E s t) :
    Reach bg E t ∧ (t.cleaned = false → Halted bg n t) := by
  induction h with
  | refl => exact ⟨r, fun _ => h0⟩
  | step _ hs ih => exact ⟨.step _ _ ih.1 hs, fun hc => halted_step (reach_invA ih.1) (ih.2 (cleaned_step hs hc)) hc hs⟩

/-- **C65**: after `Interrupt` (59: the interrupt bit is set) and until the runner cleans up at most one more task is started – none, unless the
thread of the runner is between its test of the bit and `Pop`. -/
theorem C65_interrupt {bg : Bool} {E : Env} {s t : St} (r : Reach bg E s) (hi : s.word.intr = true) (h : Steps bg E s t) (hc : t.cleaned = false) :
    t.started.length ≤ s.started.length + 1 ∧
    (s.pc ≠ .pop → (bg = false → s.pc ≠ .dec) → t.started.length ≤ s.started.length) := by
  constructor
  · exact ((halted_steps (n := s.started.length + 1) r ⟨hi, by omega, fun _ => by omega⟩ h).2 hc).len
  · intro p1 p2
    refine ((halted_steps (n := s.started.length) r ⟨hi, by omega, fun h => ?_⟩ h).2 hc).len
    rcases h with h | ⟨hb, h⟩
    · exact absurd h p1
    · exact absurd h (p2 hb)

/-- both cases happen: interrupted before its test the loop starts nothing, interrupted between test and `Pop` it starts the task -/
theorem C65_interrupt_example : ∃ s t, Reach true {} s ∧ s.word.intr = true ∧ s.pc = .pop ∧ s.started = [] ∧ Steps true {} s t ∧ t.cleaned = false ∧ t.started = [7] := by
  have r0 := reach_start true {} 1
  have r1 := post_wake r0 0 7 rfl rfl rfl (by unfold m28; decide) (by decide)
  have r3 := Reach.step _ _ r1 (.enter _ rfl)
  have r4 := Reach.step _ _ r3 (.load _ rfl)
  have r5 := Reach.step _ _ r4 (.decRun _ rfl (by decide +kernel))
  have r6 := Reach.step _ _ r5 (.popChk _ rfl)
  have r7 := Reach.step _ _ r6 (.interrupt _)
  exact ⟨_, _, r7, rfl, rfl, rfl, .step .refl (.pop _ 7 [] rfl rfl), rfl, rfl⟩

#print axioms C65_interrupt
#print axioms C65_interrupt_example

end Verif.ThreadRunner
