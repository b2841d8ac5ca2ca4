import Verif.MsgLoop.Props
/-! C106: executions that starve messages, tasks, the interruption; concrete cases of the bounds. -/
namespace Verif.MsgLoop

theorem Run.single {bg E d l s t} (h : Step bg E l s t) (u n k) (hr : Run bg E d t n k u) : Run bg E d s (n + l.isRunner) (k + d s.pc l) u :=
  .cons h hr

/-- An endless execution: the states `X k` follow each other with at least one step of the runner in between. By `Mono` whatever has not
happened in any `X k` never happens. -/
def Endless (bg : Bool) (E : Env) (X : Nat → St) : Prop := Reach bg E (X 0) ∧ ∀ k, ∃ n, 1 ≤ n ∧ Run bg E calm (X k) n 0 (X (k + 1))

theorem rr {E w} {bg} {s t : St} (hw : s.pc = .sleep → canWake s w) (h : loopStep bg E w s = some t) : Step bg E (.runner w) s t := .runner s w t hw h

/-- a UI loop with a task and an interruption waiting, while messages keep coming -/
def flood (k : Nat) : St :=
  { pc := .peek, mq := [.app], fresh := true, queue := [7], cnt := 1, intr := true, posted := List.replicate (k + 1) .app,
    removed := List.replicate k .app }

/-- **C106 fails** (UI loop). A message handler that posts a message each time keeps the loop from its tasks and from the interruption for
ever: the message phase (79-100) ends only with an empty queue and does not test `bInterrupt`. -/
theorem C106_ui_flood_fails (E : Env) : Endless false E flood ∧
    ∀ k, ¬Finished (flood k) ∧ (flood k).ran = [] ∧ (flood k).queue = [7] ∧ (flood k).intr = true := by
  refine ⟨⟨?_, fun k => ⟨1, Nat.le_refl _, ?_⟩⟩, fun k => ⟨?_, rfl, rfl, rfl⟩⟩
  · have h1 : Reach false E ((start false).post 7) := .step .start (.task _ 7)
    exact .step h1 (.intr _)
  · have e : loopStep false E .other ((flood k).arrive .app) = some (flood (k + 1)) := by
      simp [loopStep, uiStep, flood, St.arrive, St.take, List.replicate_succ']
    exact .cons (.msg _ .app) (.cons (rr (w := .other) (by simp [flood, St.arrive]) e) (.nil _))
  · rintro ⟨r, h⟩
    simp [flood] at h

/-- a background loop with a task that posts itself again, while `WM_QUIT` and a signalled handle wait -/
def starve (k : Nat) : St :=
  { pc := .dec, mq := .quit 0 :: List.replicate (k + 1) .app, fresh := true, queue := [7], cnt := 1, pending := 1, sig := 1,
    posted := .quit 0 :: List.replicate (k + 1) .app, ran := List.replicate k 7, timed := k }

/-- **C106 fails** (background loop). A task that posts itself again keeps the loop from `WM_QUIT`, from all messages and from all waits for
ever: with a new task in the queue the loop goes on (`continue`, 192) without looking at anything else. -/
theorem C106_bg_starve_fails (E : Env) : Endless true E starve ∧
    ∀ k, ¬Finished (starve k) ∧ (starve k).removed = [] ∧ (starve k).mq[0]? = some (.quit 0) ∧ (starve k).sig = 1 ∧ (starve k).waited = 0 := by
  refine ⟨⟨?_, fun k => ⟨2, by omega, ?_⟩⟩, fun k => ⟨?_, rfl, rfl, rfl, rfl⟩⟩
  · have h1 : Reach true E ((start true).arrive (.quit 0)) := .step .start (.msg _ _)
    have h2 := Reach.step h1 (.task _ 7)
    have h3 := Reach.step h2 (.signal _)
    exact .step h3 (rr (w := .other) (by simp [start, St.arrive, St.post]) rfl)
  · have e1 : loopStep true E .other (starve k) = some (starve k).runTask := by
      simp [loopStep, bgStep, starve]
    have e2 : loopStep true E .other ((starve k).runTask.post 7) = some (starve (k + 1)) := by
      simp [loopStep, bgStep, starve, St.runTask, St.post, St.arrive, List.replicate_succ']
    exact .cons (rr (w := .other) (by simp [starve]) e1) (.cons (.task _ 7)
      (.cons (rr (w := .other) (by simp [starve, St.runTask, St.post, St.arrive]) e2) (.nil _)))
  · rintro ⟨r, h⟩
    simp [starve] at h

/-- a UI loop with a task that posts itself again, while a timer and a signalled handle wait; the loop has just taken the messages -/
def starveUi (k : Nat) : St :=
  { pc := .load, queue := [7], cnt := 1, sig := 1, posted := List.replicate (k + 1) .app, removed := List.replicate (k + 1) .app,
    ran := List.replicate k 7, pending := min k 1 }

/-- **C106 fails** (UI loop). A task that posts itself again keeps the loop from its timers and waits for ever: with a new task in the
queue the loop starts over (`break`, 125) in front of `ProcessingTimerTasks` (130). -/
theorem C106_ui_starve_fails (E : Env) : Endless false E starveUi ∧
    ∀ k, ¬Finished (starveUi k) ∧ (starveUi k).timed = 0 ∧ (starveUi k).sig = 1 ∧ (starveUi k).waited = 0 := by
  refine ⟨⟨?_, fun k => ⟨5, by omega, ?_⟩⟩, fun k => ⟨?_, rfl, rfl, rfl⟩⟩
  · have h1 : Reach false E ((start false).post 7) := .step .start (.task _ 7)
    have h2 := Reach.step h1 (.signal _)
    have h3 := Reach.step h2 (rr (w := .other) (fun _ => trivial) rfl)
    exact Reach.step h3 (rr (w := .other) (fun _ => trivial) rfl)
  · have e1 : loopStep false E .other (starveUi k) = some { starveUi k with pc := .dec, pending := 1 } := by
      simp [loopStep, uiStep, starveUi]
    have e2 : loopStep false E .other { starveUi k with pc := .dec, pending := 1 } =
        some { starveUi k with pc := .dec, queue := [], processed := 1, pending := 0, ran := List.replicate (k + 1) 7 } := by
      simp [loopStep, uiStep, starveUi, St.runTask, List.replicate_succ']
    have e3 : loopStep false E .other
        (St.post { starveUi k with pc := .dec, queue := [], processed := 1, pending := 0, ran := List.replicate (k + 1) 7 } 7) =
        some { starveUi (k + 1) with pc := .peek, mq := [.app], fresh := true, removed := List.replicate (k + 1) .app } := by
      simp [loopStep, uiStep, starveUi, St.post, St.arrive, List.replicate_succ']
    have e4 : loopStep false E .other
        { starveUi (k + 1) with pc := .peek, mq := [.app], fresh := true, removed := List.replicate (k + 1) .app } =
        some { starveUi (k + 1) with pc := .peek, fresh := true } := by
      simp [loopStep, uiStep, starveUi, St.take, List.replicate_succ']
    have e5 : loopStep false E .other { starveUi (k + 1) with pc := .peek, fresh := true } =
        some (starveUi (k + 1)) := by
      simp [loopStep, uiStep, starveUi]
    exact .cons (rr (w := .other) (fun _ => trivial) e1) (.cons (rr (w := .other) (fun _ => trivial) e2) (.cons (.task _ 7)
      (.cons (rr (w := .other) (fun _ => trivial) e3) (.cons (rr (w := .other) (fun _ => trivial) e4)
      (.cons (rr (w := .other) (fun _ => trivial) e5) (.nil _))))))
  · rintro ⟨r, h⟩
    simp [starveUi] at h

/-- a background loop that only serves handles -/
def deaf (k : Nat) : St := { pc := .load, shared := false, intr := true, waited := k, timed := k }

/-- **C106 fails** (background loop). With waits (or timers) only, the loop never notices that it was interrupted or that nobody holds the
runner any more; the callbacks go on. Both are tested only in front of a task (239) or a message (204). -/
theorem C106_bg_interrupt_fails (E : Env) : Endless true E deaf ∧
    ∀ k, ¬Finished (deaf k) ∧ (deaf k).intr = true ∧ (deaf k).shared = false ∧ (deaf k).waited = k := by
  refine ⟨⟨?_, fun k => ⟨3, by omega, ?_⟩⟩, fun k => ⟨?_, rfl, rfl, rfl⟩⟩
  · have h1 : Reach true E _ := .step .start (.intr _)
    exact .step h1 (.unshare _)
  · have e1 : loopStep true E .other (deaf k) = some { deaf k with pc := .dec } := by
      simp [loopStep, bgStep, deaf]
    have e2 : loopStep true E .other { deaf k with pc := .dec } = some { deaf k with pc := .sleep, timed := k + 1 } := by
      simp [loopStep, bgStep, deaf]
    have e3 : loopStep true E .handle { deaf k with pc := .sleep, sig := 1, timed := k + 1 } = some (deaf (k + 1)) := by
      simp [loopStep, bgStep, deaf, St.serve, freshAfter]
    exact .cons (rr (w := .other) (by simp [deaf]) e1) (.cons (rr (w := .other) (by simp) e2) (.cons (.signal _)
      (.cons (rr (w := .handle) (by simp [canWake, deaf]) e3) (.nil _))))
  · rintro ⟨r, h⟩
    simp [deaf] at h

/-- **C106 fails** (both loops). Task code that looks at the queue without emptying it makes the loop sleep on an unread message. -/
theorem C106_look_fails (E : Env) (h : E.looks = true) : ∃ s, Reach false E s ∧ s.pc = .sleep ∧ s.mq = [.user 1] ∧
    ¬canWake s .handle ∧ ¬canWake s .input := by
  let s0 := (start false).post 5
  have h0 : Reach false E s0 := .step .start (.task _ 5)
  let s1 : St := { s0 with mq := [], removed := [.app] }
  have h1 : Reach false E s1 := .step h0 (rr (w := .other) (by simp [s0, start, St.arrive, St.post]) rfl)
  let s2 : St := { s1 with pc := .load, fresh := false }
  have h2 : Reach false E s2 := .step h1 (rr (w := .other) (by simp [s1, s0, start, St.arrive, St.post]) rfl)
  let s3 : St := { s2 with pc := .dec, pending := 1 }
  have h3 : Reach false E s3 := .step h2 (rr (w := .other) (by simp [s2]) rfl)
  have h4 : Reach false E s3.runTask := .step h3 (rr (w := .other) (by simp [s3]) rfl)
  have h5 := Reach.step h4 (.msg _ (.user 1))
  have h6 := Reach.step h5 (.look _ h)
  refine ⟨{ s3.runTask.arrive (.user 1) with fresh := false, pc := .sleep, cnt := 0, processed := 0, pending := 0, timed := 1 },
    .step h6 (rr (w := .other) (by simp [s3, St.runTask, St.arrive, s2, s1, s0, start, St.post]) rfl), rfl, rfl, ?_, ?_⟩
  · simp [canWake, St.runTask, St.arrive, s3, s2, s1, s0, start, St.post]
  · simp [canWake]

/-- **C106 fails** (background loop). If a wait that reports a handle counts as a look at the queue, the message that came at the same time
is left there and the loop sleeps on it: after a handle the loop does not empty the queue (225-235). The UI loop always does. -/
theorem C106_checks_fails (E : Env) (h : E.checks = true) : ∃ s, Reach true E s ∧ s.pc = .sleep ∧ s.mq = [.user 1] ∧
    ¬canWake s .handle ∧ ¬canWake s .input := by
  let s1 : St := { start true with pc := .dec }
  have h1 : Reach true E s1 := .step .start (rr (w := .other) (by simp [start]) rfl)
  let s2 : St := { s1 with pc := .sleep, timed := 1 }
  have h2 : Reach true E s2 := .step h1 (rr (w := .other) (by simp [s1]) rfl)
  have h3 : Reach true E _ := .step h2 (.signal _)
  have h4 := Reach.step h3 (.msg _ (.user 1))
  let s5 : St := { s2.arrive (.user 1) with pc := .load, fresh := false, waited := 1 }
  have h5 : Reach true E s5 := .step h4 (rr (w := .handle) (by simp [canWake, St.arrive])
    (by simp [loopStep, bgStep, s2, s1, s5, start, St.arrive, St.serve, freshAfter, h]))
  let s6 : St := { s5 with pc := .dec }
  have h6 : Reach true E s6 := .step h5 (rr (w := .other) (by simp [s5]) rfl)
  refine ⟨{ s6 with pc := .sleep, timed := 2 }, .step h6 (rr (w := .other) (by simp [s6]) rfl), rfl, rfl, ?_, ?_⟩
  · simp [canWake, s6, s5, s2, s1, start, St.arrive]
  · simp [canWake, s6, s5]

/-- Concrete case of `C106_ui_message`: a batch of two tasks, a message and then `WM_QUIT`. Five steps of the loop are the bound for the
first, six for the second; the loop takes exactly six to return. -/
def demo : St :=
  { pc := .dec, mq := [.user 1, .quit 3], fresh := true, queue := [5, 6], cnt := 2, pending := 2, posted := [.app, .app, .user 1, .quit 3],
    removed := [.app, .app] }

theorem demo_reach (E : Env) : Reach false E demo := by
  have h1 : Reach false E _ := .step .start (.task _ 5)
  have h2 : Reach false E _ := .step h1 (.task _ 6)
  have h3 : Reach false E _ := .step h2 (rr (w := .other) (fun _ => trivial) rfl)
  have h4 : Reach false E _ := .step h3 (rr (w := .other) (fun _ => trivial) rfl)
  have h5 : Reach false E _ := .step h4 (rr (w := .other) (fun _ => trivial) rfl)
  have h6 : Reach false E _ := .step h5 (rr (w := .other) (fun _ => trivial) rfl)
  have h7 := Reach.step h6 (.msg _ (.user 1))
  exact .step h7 (.msg _ (.quit 3))

/-- the end of it -/
def demoEnd : St :=
  { pc := .done (.quit 3), fresh := true, posted := [.app, .app, .user 1, .quit 3], removed := [.app, .app, .user 1, .quit 3], ran := [5, 6], timed := 1 }

theorem C106_example (E : Env) : Reach false E demo ∧ demo.pc ≠ .load ∧ demo.mq[1]? = some (.quit 3) ∧
    ∃ u, Run false E calm demo 6 0 u ∧ u.pc = .done (.quit 3) ∧ u.removed = [.app, .app, .user 1, .quit 3] ∧ u.ran = [5, 6] := by
  refine ⟨demo_reach E, by decide, rfl, demoEnd, ?_, ?_⟩
  · exact .cons (rr (w := .other) (fun _ => trivial) rfl) (.cons (rr (w := .other) (fun _ => trivial) rfl) (.cons (rr (w := .other) (fun _ => trivial) rfl)
      (.cons (rr (w := .input) (fun _ => ⟨rfl, rfl⟩) (by simp [loopStep, uiStep, freshAfter]; rfl)) (.cons (rr (w := .other) (fun _ => trivial) rfl)
      (.cons (rr (w := .other) (fun _ => trivial) rfl) (.nil _))))))
  · exact ⟨rfl, rfl, rfl⟩

end Verif.MsgLoop
