import Verif.Coro.Props

/-! # Concrete executions of coroutines (C78) -/
namespace Verif.Coro

/-- a coroutine on runner 1 awaits an operation, is suspended, and a thread without runner completes the operation with value 7 and takes the handler -/
theorem reach_held (sp : Bool) : ∃ s, Reach sp (some 1) s ∧ s.run = .idle ∧ s.frame = .live ∧ s.own = none ∧ s.queue = [] ∧ s.lost = 0 ∧ s.suspends = 1 ∧ s.resumes = 0 ∧ s.log = [] ∧
    s.dead = (fun _ => false) ∧ s.stopped = (fun _ => false) ∧
    s.ops = [{ kind := some (.val 7), stage := .swapped, held := true, place := none, home := some 1 }] := by
  have h0 : Reach sp (some 1) _ := .init
  have h1 := Reach.step h0 (.await rfl)
  have h2 := Reach.step h1 (.ready rfl rfl)
  have h3 := Reach.step h2 (.check rfl rfl)
  have h4 := Reach.step h3 (.addYes rfl rfl rfl)
  have h5 := Reach.step h4 (.win (i := 0) (.val 7) none rfl rfl)
  have h6 := Reach.step h5 (.write (i := 0) rfl rfl)
  have h7 := Reach.step h6 (.publish (i := 0) rfl rfl)
  have h8 := Reach.step h7 (.swap (i := 0) rfl rfl)
  exact ⟨_, h8, rfl, rfl, rfl, rfl, rfl, rfl, rfl, rfl, rfl, rfl, rfl⟩

/-- The usual course: the completing thread posts to runner 1, which resumes the coroutine; it gets 7 and returns 8. -/
theorem C78_example : ∃ s, Reach false (some 1) s ∧ s.frame = .ended ∧ s.own = some (.val 8) ∧ s.log = [(0, .val 7)] ∧ s.suspends = 1 ∧ s.resumes = 1 ∧ s.at_ = some 1 := by
  obtain ⟨⟨run, at_, ops, frame, queue, lost, dead, stopped, own, log, su, re, bad⟩, hr, h1, h2, h3, h4, h5, h6, h7, h8, h9, h10, h11⟩ := reach_held false
  simp only at h1 h2 h3 h4 h5 h6 h7 h8 h9 h10 h11
  subst h1 h2 h3 h4 h5 h6 h7 h8 h9 h10 h11
  have a1 := Reach.step hr (.notify (i := 0) rfl rfl)
  have a2 := Reach.step a1 (.exec (q1 := []) (r := 1) (q2 := []) rfl)
  have a3 := Reach.step a2 (.get0 rfl rfl)
  have a4 := Reach.step a3 (.get1 rfl rfl)
  have a5 := Reach.step a4 (.get2 rfl rfl (.inr (.inl rfl)))
  have a6 := Reach.step a5 (.get3 rfl rfl)
  have a7 := Reach.step a6 (.finish (.val 8) rfl (by simp))
  exact ⟨_, a7, rfl, rfl, rfl, rfl, rfl, rfl⟩

/-- C78 fails: the runner is gone when the awaited operation completes. The frame is destroyed in the middle of the body, and the task that `co_await`ing callers hold is never completed. -/
theorem C78_destroyed_fails : ∃ s, Reach false (some 1) s ∧ s.frame = .destroyed ∧ s.own = none ∧
    ∀ t, Steps false s t → t.run = .idle ∧ ∀ k, t.own = some k → k = .canceled := by
  obtain ⟨⟨run, at_, ops, frame, queue, lost, dead, stopped, own, log, su, re, bad⟩, hr, h1, h2, h3, h4, h5, h6, h7, h8, h9, h10, h11⟩ := reach_held false
  simp only at h1 h2 h3 h4 h5 h6 h7 h8 h9 h10 h11
  subst h1 h2 h3 h4 h5 h6 h7 h8 h9 h10 h11
  have a1 := Reach.step hr (.die 1)
  have a2 := Reach.step a1 (.notify (i := 0) rfl rfl)
  refine ⟨_, a2, rfl, rfl, fun t ht => ?_⟩
  obtain ⟨x, _, y, _⟩ := C78_stuck_fails a2 (.inr rfl) ht
  exact ⟨x, y⟩

/-- C78 fails: the runner has stopped (`PostTask` fails, its result is ignored). The frame is never freed, the body never goes on, the task is never completed. -/
theorem C78_leak_fails : ∃ s, Reach false (some 1) s ∧ s.lost = 1 ∧ s.own = none ∧
    ∀ t, Steps false s t → t.run = .idle ∧ t.frame = .live ∧ ∀ k, t.own = some k → k = .canceled := by
  obtain ⟨⟨run, at_, ops, frame, queue, lost, dead, stopped, own, log, su, re, bad⟩, hr, h1, h2, h3, h4, h5, h6, h7, h8, h9, h10, h11⟩ := reach_held false
  simp only at h1 h2 h3 h4 h5 h6 h7 h8 h9 h10 h11
  subst h1 h2 h3 h4 h5 h6 h7 h8 h9 h10 h11
  have a1 := Reach.step hr (.stop 1)
  have a2 := Reach.step a1 (.notify (i := 0) rfl rfl)
  refine ⟨_, a2, rfl, rfl, fun t ht => ?_⟩
  obtain ⟨x, _, y, _, z⟩ := C78_stuck_fails a2 (.inl (Nat.lt_add_one 0)) ht
  exact ⟨x, z (Nat.lt_add_one 0), y⟩

/-- C78 fails: `WaitOnAddress` returns early, the status is set but the value is not there yet: `co_await` returns a value nobody computed. -/
theorem C78_result_fails : ∃ s, Reach true (some 1) s ∧ (0, Outcome.garbage) ∈ s.log ∧ ∃ o, s.ops[0]? = some o ∧ o.kind = some (.val 7) := by
  have h0 : Reach true (some 1) _ := .init
  have h1 := Reach.step h0 (.await rfl)
  have h2 := Reach.step h1 (.win (i := 0) (.val 7) none rfl rfl)
  have h3 := Reach.step h2 (.ready rfl rfl)
  have h4 := Reach.step h3 (.get0 rfl rfl)
  have h5 := Reach.step h4 (.get1 rfl rfl)
  have h6 := Reach.step h5 (.get2 rfl rfl (.inr (.inr rfl)))
  have h7 := Reach.step h6 (.get3 rfl rfl)
  exact ⟨_, h7, List.mem_singleton.2 rfl, _, rfl, rfl⟩

/-- C78 fails: a coroutine that starts on a thread without runner ends up on the runner of whoever completes the operation, and stays there. -/
theorem C78_place_fails : ∃ s, Reach false none s ∧ s.run ≠ .idle ∧ s.at_ = some 5 := by
  have h0 : Reach false none _ := .init
  have h1 := Reach.step h0 (.await rfl)
  have h2 := Reach.step h1 (.ready rfl rfl)
  have h3 := Reach.step h2 (.check rfl rfl)
  have h4 := Reach.step h3 (.addYes rfl rfl rfl)
  have h5 := Reach.step h4 (.win (i := 0) (.val 7) (some 5) rfl rfl)
  have h6 := Reach.step h5 (.write (i := 0) rfl rfl)
  have h7 := Reach.step h6 (.publish (i := 0) rfl rfl)
  have h8 := Reach.step h7 (.swap (i := 0) rfl rfl)
  have h9 := Reach.step h8 (.notify (i := 0) rfl rfl)
  exact ⟨_, h9, by simp [onCompleted, resume, setOp], rfl⟩

end Verif.Coro
