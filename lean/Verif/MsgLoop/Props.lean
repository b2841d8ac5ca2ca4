import Verif.MsgLoop.Rank
/-! C106: messages, tasks and the end of the loop in the two loops of a thread runner. -/
namespace Verif.MsgLoop

/-- **C106** (order). Messages leave the queue in the order of their posts; none is lost or invented. -/
theorem C106_order {bg E} {s : St} (h : Reach bg E s) : s.posted = s.removed ++ s.mq := (reach_inv h).hist

/-- **C106** (result). The loop returns a `wParam` exactly after taking the first `WM_QUIT`, leaving everything behind it in the queue, and
`ERROR_CANCELLED` only when interrupted or no longer shared. -/
theorem C106_result {bg E} {s : St} (h : Reach bg E s) :
    (∀ w, s.pc = .done (.quit w) → ∃ l, s.removed = l ++ [.quit w] ∧ (∀ v, Msg.quit v ∉ l) ∧ s.posted = l ++ .quit w :: s.mq) ∧
    ((∀ w, s.pc ≠ .done (.quit w)) → ∀ w, Msg.quit w ∉ s.removed) ∧
    (s.pc = .done .cancelled → s.shared = false ∨ s.intr = true) := by
  have hI := reach_inv h
  refine ⟨fun w hw => ?_, hI.quiet, hI.canc⟩
  obtain ⟨l, h1, h2⟩ := hI.last w hw
  refine ⟨l, h1, h2, ?_⟩
  rw [hI.hist, h1]
  simp

/-- **C106** (no sleep on unread messages). When the loop waits with a message in the queue, the wait returns: for a handle or for input.
Missing: user code that looks at the queue (`C106_look_fails`) and, for the background loop, a wait that counts as a look
(`C106_checks_fails`). -/
theorem C106_awake_partial {bg E} (h1 : E.looks = false) (h2 : bg = true → E.checks = false) {s : St} (h : Reach bg E s)
    (hp : s.pc = .sleep) (hm : s.mq ≠ []) : canWake s .handle ∨ canWake s .input := by
  have hf := reach_fresh h1 h2 h (.inr (.inr hp)) hm
  by_cases hs : s.sig = 0
  · exact .inr ⟨hf, hs⟩
  · exact .inl (Nat.pos_of_ne_zero hs)

theorem taken {s u : St} (hs : Inv s) (hu : Inv u) (hmono : Mono s u) {i m} (hm : s.mq[i]? = some m) (hg : MGoal (s.removed.length + i) u) :
    Finished u ∨ u.removed[s.removed.length + i]? = some m := by
  refine hg.imp id fun hl => ?_
  obtain ⟨t, ht⟩ := hmono.posted
  have e1 : s.posted[s.removed.length + i]? = some m := by
    rw [hs.hist, List.getElem?_append_right (by omega)]
    simpa using hm
  have e2 : u.posted[s.removed.length + i]? = some m := by
    rw [← ht]
    exact List.getElem?_append_left (List.getElem?_eq_some_iff.mp e1).1 ▸ e1
  rw [hu.hist, List.getElem?_append_left hl] at e2
  exact e2

theorem ranTask {s u : St} (hmono : Mono s u) {i t} (hm : s.queue[i]? = some t) (hg : TGoal (s.ran.length + i) u) :
    Finished u ∨ u.ran[s.ran.length + i]? = some t := by
  refine hg.imp id fun hl => ?_
  obtain ⟨l, ht⟩ := hmono.tasks
  have e1 : (s.ran ++ s.queue)[s.ran.length + i]? = some t := by
    rw [List.getElem?_append_right (by omega)]
    simpa using hm
  have e2 : (u.ran ++ u.queue)[s.ran.length + i]? = some t := by
    rw [← ht]
    exact List.getElem?_append_left (List.getElem?_eq_some_iff.mp e1).1 ▸ e1
  rw [List.getElem?_append_left hl] at e2
  exact e2

theorem mwait {s : St} {i m} (hm : s.mq[i]? = some m) : MWait (s.removed.length + i) s :=
  ⟨Nat.le_add_right _ _, by have := (List.getElem?_eq_some_iff.mp hm).1; omega⟩
theorem twait {s : St} {i t} (hm : s.queue[i]? = some t) : TWait (s.ran.length + i) s :=
  ⟨Nat.le_add_right _ _, by have := (List.getElem?_eq_some_iff.mp hm).1; omega⟩

/-- no weights -/
def calm (_ : PC) (_ : Lab) : Nat := 0

theorem calm_zero {bg E} {s u : St} {n k} (hr : Run bg E calm s n k u) : k = 0 := by
  induction hr with
  | nil => rfl
  | cons _ _ ih => rw [ih]; rfl

/-- **C106** (UI loop, messages). Whatever happens around it, the message at position `i` is taken within `pending + i + 3` steps of the
loop, unless the loop returns: at most the tasks of the current batch run first. -/
theorem C106_ui_message {E} {s u : St} {n k i m} (h : Reach false E s) (hr : Run false E calm s n k u) (hm : s.mq[i]? = some m)
    (hp : s.pc ≠ .load) (hn : s.pending + i + 3 ≤ n) : Finished u ∨ u.removed[s.removed.length + i]? = some m := by
  have hI := reach_inv h
  refine taken hI (reach_inv (run_reach hr h)) (mono_runs hr) hm ?_
  have hk := calm_zero hr
  refine rank_run (W := fun s' => MWait (s.removed.length + i) s' ∧ s'.pc ≠ .load) (rank := uiRank (s.removed.length + i)) mgoal_mono ?_ hr hI
    ⟨mwait hm, hp⟩ (fun _ _ => uiRank_pos _ _) ?_
  · intro l s t hI hW hs
    obtain ⟨hW, hp⟩ := hW
    rcases ui_rank_step hI hW hs with hg | ⟨h1, h2, h3⟩
    · exact .inl hg
    · refine .inr ⟨⟨h1, h3 hp⟩, ?_⟩
      rw [if_neg (by simp [hp])] at h2
      exact h2
  · rw [hk]
    unfold uiRank
    cases hpc : s.pc <;> simp only <;> first | omega | exact absurd hpc hp

/-- tasks posted while the loop is about to read the count -/
def atLoad (pc : PC) (l : Lab) : Nat := if pc = .load ∧ l = .task then 1 else 0

/-- **C106** (UI loop, messages, before the count is read): the tasks in the queue when it is read run first. -/
theorem C106_ui_message_load {E} {s u : St} {n k i m} (h : Reach false E s) (hr : Run false E atLoad s n k u) (hm : s.mq[i]? = some m)
    (hp : s.pc = .load) (hn : s.queue.length + i + 4 + k ≤ n) : Finished u ∨ u.removed[s.removed.length + i]? = some m := by
  have hI := reach_inv h
  refine taken hI (reach_inv (run_reach hr h)) (mono_runs hr) hm ?_
  refine rank_run (W := MWait (s.removed.length + i)) (rank := uiRank (s.removed.length + i)) mgoal_mono ?_ hr hI (mwait hm) (fun _ _ => uiRank_pos _ _) ?_
  · intro l s t hI hW hs
    rcases ui_rank_step hI hW hs with hg | ⟨h1, h2, h3⟩
    · exact .inl hg
    · exact .inr ⟨h1, h2⟩
  · unfold uiRank
    rw [hp]
    simp only
    omega

/-- **C106** (UI loop, tasks). Every message that arrives delays the tasks by at most one step of the loop. -/
theorem C106_ui_task {E} {s u : St} {n k i t} (h : Reach false E s) (hr : Run false E uiDisturb s n k u) (hm : s.queue[i]? = some t)
    (hn : s.mq.length + i + 5 + k ≤ n) : Finished u ∨ u.ran[s.ran.length + i]? = some t := by
  have hI := reach_inv h
  refine ranTask (mono_runs hr) hm ?_
  refine rank_run (W := TWait (s.ran.length + i)) (rank := uiTaskRank (s.ran.length + i)) tgoal_mono (fun hI hW hs => ui_task_step hI hW hs) hr hI (twait hm)
    (fun _ _ => uiTaskRank_pos _ _) ?_
  unfold uiTaskRank
  cases s.pc <;> simp only <;> (try split) <;> omega

/-- **C106** (UI loop, interruption). Likewise for the return of an interrupted loop. -/
theorem C106_ui_interrupt {E} {s u : St} {n k} (h : Reach false E s) (hr : Run false E uiDisturb s n k u) (hi : s.intr = true)
    (hn : s.mq.length + 4 + k ≤ n) : Finished u := by
  refine rank_run (W := fun s => s.intr = true) (rank := uiIntrRank) (fun h => h.fin) (fun _ hW hs => ui_intr_step hW hs) hr (reach_inv h) hi
    (fun _ _ => uiIntrRank_pos _) ?_
  unfold uiIntrRank
  cases s.pc <;> simp only <;> omega

/-- **C106** (background loop, messages). A message waits for the tasks and the signalled handles, also for those that come later: each
costs at most three steps of the loop. Missing: a bound that holds whatever is posted (`C106_bg_starve_fails`). -/
theorem C106_bg_message_partial {E} {s u : St} {n k i m} (h : Reach true E s) (hr : Run true E bgDisturb s n k u) (hm : s.mq[i]? = some m)
    (hn : 3 * s.sig + 2 * s.queue.length + i + 5 + k ≤ n) : Finished u ∨ u.removed[s.removed.length + i]? = some m := by
  have hI := reach_inv h
  refine taken hI (reach_inv (run_reach hr h)) (mono_runs hr) hm ?_
  refine rank_run (W := MWait (s.removed.length + i)) (rank := bgRank (s.removed.length + i)) mgoal_mono (fun hI hW hs => bg_rank_step hI hW hs) hr hI (mwait hm)
    (fun _ _ => bgRank_pos _ _) ?_
  have := batch_le s.processed
  unfold bgRank
  cases s.pc <;> simp only <;> omega

/-- **C106** (background loop, tasks). In a batch, nothing that happens around the loop delays the tasks of the queue, not even a flood of
messages: the one at position `i` runs within `i + 2` steps. -/
theorem C106_bg_task {E} {s u : St} {n k i t} (h : Reach true E s) (hr : Run true E calm s n k u) (hm : s.queue[i]? = some t)
    (hp : s.pc = .dec) (hb : s.pending ≠ 0 ∨ s.processed ≠ 0) (hn : i + 2 ≤ n) : Finished u ∨ u.ran[s.ran.length + i]? = some t := by
  have hI := reach_inv h
  refine ranTask (mono_runs hr) hm ?_
  have hk := calm_zero hr
  refine rank_run (W := fun s' => Busy s' ∧ TWait (s.ran.length + i) s') (rank := bgTaskRank (s.ran.length + i)) tgoal_mono (fun hI hW hs => bg_task_step hI hW hs) hr hI
    ⟨⟨hp, hb⟩, twait hm⟩ (fun s _ => by unfold bgTaskRank; split <;> omega) ?_
  rw [hk]
  unfold bgTaskRank
  split <;> omega

/-- **C106** (background loop, timers). The timers are looked at after each batch, whatever is posted meanwhile. The UI loop does not do
this (`C106_ui_starve_fails`). -/
theorem C106_bg_timers {E} {s u : St} {n k} (h : Reach true E s) (hr : Run true E calm s n k u) (hp : s.pc = .dec)
    (hn : s.pending + 1 ≤ n) : Finished u ∨ s.timed < u.timed := by
  have hk := calm_zero hr
  exact rank_run (W := fun s' => s'.pc = .dec ∧ s'.timed = s.timed) (rank := fun s' => s'.pending + 1)
    (fun hm hg => hg.imp hm.fin fun hl => Nat.lt_of_lt_of_le hl hm.timed) (fun hI hW hs => bg_timer_step hI hW hs) hr (reach_inv h) ⟨hp, rfl⟩
    (fun _ _ => Nat.succ_pos _) (by rw [hk]; exact hn)

end Verif.MsgLoop
