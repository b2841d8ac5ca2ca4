import Verif.Bind.Model
/-!
# C84 – bound member functions never run on a destroyed object
-/
namespace Verif.Bind

/-- the object is alive exactly while somebody keeps it -/
def Kept (k : Cap) (s : St) : Prop := s.alive = true ↔ 0 < refs k s

theorem kept_settle {k : Cap} {s u : St} (h : Kept k s) (ha : u.alive = s.alive) (hr : refs k u ≤ refs k s) : Kept k (settle k u) := by
  unfold Kept at *
  have e : refs k (settle k u) = refs k u := rfl
  rw [e]
  simp only [settle, Bool.and_eq_true, decide_eq_true_eq, ha]
  exact ⟨fun h => h.2, fun h1 => ⟨h.2 (by omega), h1⟩⟩

theorem refs_of_alive {k : Cap} {s : St} (h : Kept k s) (h0 : 0 < refs k s) : s.alive = true := h.2 h0

theorem kept_reach {k : Cap} {null sd dc : Bool} {n : Nat} (hn : 0 < n) {s : St} (h : Reach k null sd dc n s) : Kept k s := by
  induction h with
  | start =>
    unfold Kept refs start
    cases k <;> simp [Cap.owns, Cap.locks] <;> omega
  | @step s t _ hs ih =>
    cases hs with
    | share h1 =>
      have h2 : 0 < refs k s := by unfold refs; omega
      exact ⟨fun _ => by unfold refs; simp only; omega, fun _ => ih.2 h2⟩
    | drop h1 h2 => exact kept_settle (s := s) ih rfl (by unfold refs; simp only; omega)
    | copy h1 h2 =>
      unfold Kept refs at *
      simp only at *
      cases k <;> simp [Cap.owns, Cap.locks] at * <;> first | exact ih | (rw [ih]; omega)
    | destroy h1 h2 => exact kept_settle (s := s) ih rfl (by unfold refs; simp only; split <;> omega)
    | call h1 =>
      unfold call
      cases hc : k.checks with
      | true =>
        simp only [if_true]
        by_cases hnl : (null || !s.alive) = true
        · rw [if_pos hnl]; exact ih
        · rw [if_neg hnl]
          have ha : s.alive = true := by
            cases hs : s.alive with
            | true => rfl
            | false => simp [hs] at hnl
          have h0 := ih.1 ha
          unfold Kept
          simp only [ha, true_iff]
          have hle : (if k.locks then s.running else 0) ≤ (if k.locks then s.running + 1 else 0) := by split <;> omega
          unfold refs at *
          simp only
          omega
      | false =>
        simp only [Bool.false_eq_true, if_false]
        have hl : k.locks = false := by cases k <;> simp [Cap.checks, Cap.locks] at *
        unfold Kept refs at *
        simp only [hl] at *
        exact ih
    | use h1 => exact ih
    | ret h1 => exact kept_settle (s := s) ih rfl (by unfold refs; simp only; split <;> split <;> omega)

/-- **C84**: with a weak capture, in every execution – owners may go away at any moment, functors be destroyed during their own call – the member
function never runs on a destroyed object, also not on a null one. -/
theorem C84_weak {null sd dc : Bool} {n : Nat} (hn : 0 < n) {s : St} (h : Reach .weak null sd dc n s) : s.bad = false := by
  have key : s.bad = false := by
    induction h with
    | start => rfl
    | @step s t hr hs ih =>
      have hk := kept_reach hn hr
      cases hs with
      | call h1 =>
        unfold call
        simp only [Cap.checks, if_true]
        split <;> exact ih
      | use h1 =>
        have : s.alive = true := hk.2 (by unfold refs; simp [Cap.owns, Cap.locks]; omega)
        simp [ih, this]
      | _ => exact ih
  exact key

/-- **C84**: a call through a weak capture throws exactly if the object is gone (no owner outside, no call that keeps it) or never existed; it reaches
the member function otherwise. -/
theorem C84_throws {null sd dc : Bool} {n : Nat} (hn : 0 < n) {s : St} (h : Reach .weak null sd dc n s) :
    ((call .weak null s).thrown = s.thrown + 1 ↔ null = true ∨ (s.ext = 0 ∧ s.running = 0)) ∧
      ((call .weak null s).ran = s.ran + 1 ↔ ¬ (null = true ∨ (s.ext = 0 ∧ s.running = 0))) := by
  have hk := kept_reach hn h
  have hr : refs .weak s = s.ext + s.running := by simp [refs, Cap.owns, Cap.locks]
  unfold Kept at hk
  rw [hr] at hk
  unfold call
  simp only [Cap.checks, if_true]
  cases null with
  | true => simp
  | false =>
    cases ha : s.alive with
    | true =>
      have := hk.1 ha
      simp
      omega
    | false =>
      have : ¬ 0 < s.ext + s.running := fun h0 => by rw [hk.2 h0] at ha; cases ha
      simp
      omega

/-- **C84**: a weak capture does not prolong the life of the object: once the last owner has left and the calls have returned, it is destroyed. -/
theorem C84_weak_no_leak {null sd dc : Bool} {n : Nat} (hn : 0 < n) {s : St} (h : Reach .weak null sd dc n s) (h1 : s.ext = 0) (h2 : s.running = 0) :
    s.alive = false := by
  have hk := kept_reach hn h
  cases ha : s.alive with
  | false => rfl
  | true =>
    have := hk.1 ha
    simp [refs, Cap.owns, Cap.locks] at this
    omega

/-- in a call of an owning functor somebody keeps that functor, unless `selfDrop` -/
theorem owns_inv {k : Cap} (ho : k.owns = true) {dc : Bool} {n : Nat} (hn : 0 < n) {s : St} (h : Reach k false false dc n s) :
    (0 < s.running → 0 < s.fns) ∧ s.bad = false ∧ (0 < s.fns → s.alive = true) := by
  have hk := kept_reach hn h
  have ha : 0 < s.fns → s.alive = true := fun h0 => hk.2 (by unfold refs; simp [ho]; omega)
  refine ⟨?_, ?_, ha⟩
  · clear ha hk
    induction h with
    | start => intro h; exact absurd h (by simp [start])
    | @step s t hr hs ih =>
      cases hs with
      | share h1 => exact ih
      | drop h1 h2 => exact ih
      | copy h1 h2 => intro h; have := ih h; simp only; omega
      | destroy h1 h2 =>
        intro h
        have h := (show 0 < s.running from h)
        rcases h2 with h2 | h2 | h2
        · cases h2
        · omega
        · simp only [settle]; omega
      | call h1 => unfold call; split <;> (try split) <;> (intro _; exact h1)
      | use h1 => exact ih
      | ret h1 => intro _; exact ih h1
  · clear ha hk
    have aux : ∀ {s}, Reach k false false dc n s → s.bad = false ∧ (0 < s.running → 0 < s.fns) := by
      intro s h
      induction h with
      | start => exact ⟨rfl, fun h => absurd h (by simp [start])⟩
      | @step s t hr hs ih =>
        have hk := kept_reach hn hr
        have ha : 0 < s.fns → s.alive = true := fun h0 => hk.2 (by unfold refs; simp [ho]; omega)
        cases hs with
        | share h1 => exact ih
        | drop h1 h2 => exact ih
        | copy h1 h2 => exact ⟨ih.1, fun h => by have := ih.2 h; simp only; omega⟩
        | destroy h1 h2 =>
          refine ⟨ih.1, fun h => ?_⟩
          have h := (show 0 < s.running from h)
          rcases h2 with h2 | h2 | h2
          · cases h2
          · omega
          · simp only [settle]; omega
        | call h1 =>
          have hc : k.checks = false := by cases k <;> simp [Cap.owns, Cap.checks] at *
          unfold call
          simp only [hc, Bool.false_eq_true, if_false]
          exact ⟨by simp [ih.1, ha h1], fun _ => h1⟩
        | use h1 => exact ⟨by simp [ih.1, ha (ih.2 h1)], ih.2⟩
        | ret h1 => exact ⟨ih.1, fun _ => ih.2 h1⟩
    exact (aux h).1

/-- **C84**, partial: with an owning capture of an existing object, the object is alive as long as a functor exists, every call reaches the member
function and none runs on a destroyed object.  Missing: functors destroyed during their own call (`C84_self_fails`), null pointers (`C84_null_fails`). -/
theorem C84_owning_partial {k : Cap} (ho : k.owns = true) {dc : Bool} {n : Nat} (hn : 0 < n) {s : St} (h : Reach k false false dc n s) :
    s.bad = false ∧ s.thrown = 0 ∧ (0 < s.fns → s.alive = true) := by
  refine ⟨(owns_inv ho hn h).2.1, ?_, (owns_inv ho hn h).2.2⟩
  have hc : k.checks = false := by cases k <;> simp [Cap.owns, Cap.checks] at *
  induction h with
  | start => rfl
  | step _ hs ih =>
    cases hs with
    | call h1 => unfold call; simp only [hc, Bool.false_eq_true, if_false]; exact ih
    | _ => exact ih

/-- **C84**, partial: with an observer, if the object is not destroyed *during* a call, no call runs on a destroyed object.  Missing: destruction during
the call (`C84_observer_fails`). -/
theorem C84_observer_partial {null sd : Bool} {n : Nat} (hn : 0 < n) {s : St} (h : Reach .observer null sd false n s) : s.bad = false := by
  have aux : ∀ {s}, Reach .observer null sd false n s → s.bad = false ∧ (0 < s.running → 0 < s.ext) := by
    intro s h
    induction h with
    | start => exact ⟨rfl, fun h => absurd h (by simp [start])⟩
    | @step s t hr hs ih =>
      have hk := kept_reach hn hr
      have hr : refs .observer s = s.ext := by simp [refs, Cap.owns, Cap.locks]
      unfold Kept at hk
      rw [hr] at hk
      cases hs with
      | share h1 => exact ⟨ih.1, fun _ => by simp only; omega⟩
      | drop h1 h2 =>
        refine ⟨ih.1, fun h => ?_⟩
        have h := (show 0 < s.running from h)
        rcases h2 with h2 | h2 | h2
        · cases h2
        · omega
        · simp only [settle]; omega
      | copy h1 h2 => exact ih
      | destroy h1 h2 => exact ih
      | call h1 =>
        unfold call
        simp only [Cap.checks, if_true]
        by_cases hnl : (null || !s.alive) = true
        · rw [if_pos hnl]; exact ih
        · rw [if_neg hnl]
          have ha : s.alive = true := by
            cases hs : s.alive with
            | true => rfl
            | false => simp [hs] at hnl
          exact ⟨ih.1, fun _ => hk.1 ha⟩
      | use h1 => exact ⟨by simp [ih.1, hk.2 (ih.2 h1)], ih.2⟩
      | ret h1 => exact ⟨ih.1, fun _ => ih.2 h1⟩
  exact (aux h).1

/-- An owning functor that is destroyed during its own call takes the object with it: the member function continues on a destroyed object. -/
theorem C84_self_fails : (∃ s, Reach .unique false true false 1 s ∧ s.bad = true) ∧ ∃ s, Reach .shared false true false 1 s ∧ s.bad = true := by
  constructor
  · have h0 : Reach .unique false true false 1 _ := .start
    have h1 := Reach.step h0 (.call _ (by decide))
    have h2 := Reach.step h1 (.destroy _ (by decide) (.inl rfl))
    have h3 := Reach.step h2 (.use _ (by decide))
    exact ⟨_, h3, by decide⟩
  · have h0 : Reach .shared false true false 1 _ := .start
    have h1 := Reach.step h0 (.drop _ (by decide) (.inr (.inl rfl)))
    have h2 := Reach.step h1 (.call _ (by decide))
    have h3 := Reach.step h2 (.destroy _ (by decide) (.inl rfl))
    have h4 := Reach.step h3 (.use _ (by decide))
    exact ⟨_, h4, by decide⟩

/-- An object that is destroyed during a call through an observer (for instance by that very member function). -/
theorem C84_observer_fails : ∃ s, Reach .observer false false true 1 s ∧ s.bad = true := by
  have h0 : Reach .observer false false true 1 _ := .start
  have h1 := Reach.step h0 (.call _ (by decide))
  have h2 := Reach.step h1 (.drop _ (by decide) (.inl rfl))
  have h3 := Reach.step h2 (.use _ (by decide))
  exact ⟨_, h3, by decide⟩

/-- `UnsafeBindPtr`: the owner leaves, then the functor is called. -/
theorem C84_raw_fails : ∃ s, Reach .raw false false false 1 s ∧ s.bad = true := by
  have h0 : Reach .raw false false false 1 _ := .start
  have h1 := Reach.step h0 (.drop _ (by decide) (.inr (.inl rfl)))
  have h2 := Reach.step h1 (.call _ (by decide))
  exact ⟨_, h2, by decide⟩

/-- A null `RefPtr`, `UniquePtr`, `shared_ptr`, `unique_ptr` or `UnsafeBindPtr` is not checked: the very first call is undefined – in every state. -/
theorem C84_null_fails (k : Cap) (h : k.checks = false) (s : St) : (call k true s).bad = true := by
  unfold call
  simp [h]

/-! ## Examples -/

/-- the owner leaves while a weakly bound call runs; a later call throws -/
theorem C84_example : ∃ s, Reach .weak false true true 1 s ∧ s.ran = 1 ∧ s.thrown = 1 ∧ s.alive = false ∧ s.bad = false := by
  have h0 : Reach .weak false true true 1 _ := .start
  have h1 := Reach.step h0 (.call _ (by decide))
  have h2 := Reach.step h1 (.drop _ (by decide) (.inl rfl))
  have h3 := Reach.step h2 (.use _ (by decide))
  have h4 := Reach.step h3 (.ret _ (by decide))
  have h5 := Reach.step h4 (.call _ (by decide))
  exact ⟨_, h5, by decide, by decide, by decide, by decide⟩

/-- an owning functor outlives the owner -/
theorem C84_example_owning : ∃ s, Reach .shared false false true 1 s ∧ s.ran = 1 ∧ s.ext = 0 ∧ s.bad = false ∧ s.alive = true := by
  have h0 : Reach .shared false false true 1 _ := .start
  have h1 := Reach.step h0 (.drop _ (by decide) (.inl rfl))
  have h2 := Reach.step h1 (.call _ (by decide))
  have h3 := Reach.step h2 (.use _ (by decide))
  exact ⟨_, h3, by decide, by decide, by decide, by decide⟩

#print axioms C84_weak
#print axioms C84_throws
#print axioms C84_weak_no_leak
#print axioms C84_owning_partial
#print axioms C84_observer_partial
#print axioms C84_self_fails
#print axioms C84_observer_fails
#print axioms C84_raw_fails
#print axioms C84_null_fails
#print axioms C84_example

end Verif.Bind
