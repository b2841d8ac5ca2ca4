import Verif.Chain.Props

/-! # Concrete chains (C79) -/
namespace Verif.Chain

/-- a root; `Then` on runner 1: adds one, throws for 7; `ThenErrorIf` for exception 3 on runner 2; a task on runner 1 -/
def demo : List Node :=
  [⟨.root, none⟩,
   ⟨.next 0 (fun v => if v = 7 then .throw (.user 3 (some 9)) else .ret (v + 1)), some 1⟩,
   ⟨.err 1 (filter (fun e => e = .user 3 (some 9)) (fun _ => .ret 100)), some 2⟩,
   ⟨.task (.ret 4), some 1⟩]

theorem demo_src : ∀ (i j : Nat) n, demo[i]? = some n → n.kind.src = some j → j < i := by
  intro i j n hn hj
  match i, hn with
  | 0, hn => cases hn; cases hj
  | 1, hn => cases hn; cases hj; decide
  | 2, hn => cases hn; cases hj; decide
  | 3, hn => cases hn; cases hj
  | (k + 4), hn => simp [demo] at hn

/-- The usual course: the root fails to please the first callback, which throws on runner 1; the second continuation recovers on runner 2. -/
theorem C79_example : ∃ s, Reach demo s ∧ Calm s ∧ s.res 0 = some (.ok 7) ∧ s.res 1 = some (.err (some (.user 3 (some 9))) 9) ∧ s.res 2 = some (.ok 100) ∧
    s.calls.map (fun e => (e.1, e.2.1)) = [(2, some 2), (1, some 1)] := by
  have h0 : Reach demo {} := .init
  have h1 := Reach.step h0 (.root (i := 0) (.ok 7) rfl rfl rfl)
  have h2 := Reach.step h1 (.next (i := 1) (some 5) rfl rfl rfl rfl)
  have h3 := Reach.step h2 (.exec (i := 1) (r := 1) rfl)
  have h4 := Reach.step h3 (.call (i := 1) rfl rfl rfl)
  have h5 := Reach.step h4 (.ret (i := 1) rfl rfl rfl)
  have h6 := Reach.step h5 (.store (i := 1) (r := .err (some (.user 3 (some 9))) (norm 9)) rfl)
  have h7 := Reach.step h6 (.err (i := 2) (some 1) rfl rfl rfl rfl)
  have h8 := Reach.step h7 (.exec (i := 2) (r := 2) rfl)
  have h9 := Reach.step h8 (.call (i := 2) rfl rfl rfl)
  have h10 := Reach.step h9 (.ret (i := 2) rfl rfl rfl)
  have h11 := Reach.step h10 (.store (i := 2) (r := .ok 100) rfl)
  refine ⟨_, h11, fun i => ⟨rfl, rfl, rfl⟩, rfl, ?_, rfl, rfl⟩
  have : norm 9 = 9 := norm_of ⟨by decide, by unfold E_PENDING; decide⟩
  show some (Res.err (some (.user 3 (some 9))) (norm 9)) = _
  rw [this]

/-- C79 fails: runner 1 is gone and the source is completed by a thread without runner. `Get()` gives null, `GetCurrent()` gives null, they are equal (Task.h 495): the callback of `Then` is called on that thread instead of the error `ERROR_CANCELLED`. -/
theorem C79_place_fails : ∃ s, Reach demo s ∧ (1, none, some (.ok 5)) ∈ s.calls ∧ demo[1]?.bind (·.home) = some 1 := by
  have h0 : Reach demo {} := .init
  have h1 := Reach.step h0 (.die 1)
  have h2 := Reach.step h1 (.root (i := 0) (.ok 5) rfl rfl rfl)
  have h3 := Reach.step h2 (.next (i := 1) none rfl rfl rfl rfl)
  have h4 := Reach.step h3 (.call (i := 1) (c := none) rfl rfl rfl)
  exact ⟨_, h4, List.mem_cons.2 (.inl rfl), rfl⟩

/-- C79 fails: runner 2 is gone. The callback of `ThenError` is called on whatever thread completes the source (Task.h 591), here one of runner 5. -/
theorem C79_error_place_fails : ∃ s x, Reach demo s ∧ (2, some 5, x) ∈ s.calls ∧ demo[2]?.bind (·.home) = some 2 := by
  have h0 : Reach demo {} := .init
  have h1 := Reach.step h0 (.die 2)
  have h2 := Reach.step h1 (.root (i := 0) (.err none 8) rfl rfl rfl)
  have h3 := Reach.step h2 (.next (i := 1) none rfl rfl rfl rfl)
  have h4 := Reach.step h3 (.err (i := 2) (some 5) rfl rfl rfl rfl)
  have h5 := Reach.step h4 (.call (i := 2) (c := some 5) rfl rfl rfl)
  exact ⟨_, _, h5, List.mem_cons.2 (.inl rfl), rfl⟩

/-- C79 fails: `CreateTask` on a stopped runner gives a task that never completes. -/
theorem C79_refused_fails : ∃ s, Reach demo s ∧ s.ph 3 = .lost ∧ ∀ t, Steps demo s t → t.res 3 = none ∨ t.res 3 = some .canceled := by
  have h0 : Reach demo {} := .init
  have h1 := Reach.step h0 (.stop 1)
  have h2 := Reach.step h1 (.create (i := 3) (r := 1) rfl rfl rfl rfl rfl)
  exact ⟨_, h2, rfl, fun t ht => (C79_lost_fails ht rfl rfl).2⟩

/-- the hypotheses of `C79_cancel_fails` can be met -/
example : ∃ s, Reach demo s ∧ s.res 0 = some .canceled ∧ s.cancels 1 = false ∧ s.tok 1 = false ∧ s.res 1 = some (.err none (norm E_CANCELLED)) := by
  have h0 : Reach demo {} := .init
  have h1 := Reach.step h0 (.cancel 0)
  have h2 := Reach.step h1 (.next (i := 1) none rfl rfl rfl rfl)
  exact ⟨_, h2, rfl, rfl, rfl, rfl⟩

end Verif.Chain
