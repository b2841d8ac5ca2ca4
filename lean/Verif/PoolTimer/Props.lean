import Verif.PoolTimer.Lemmas

/-!
# C67: references of a timer served by the thread pool

The claim "the timer object lives exactly as long as somebody refers to it" is false: `Timer::Cancel` takes
`TRUE` from `DeleteTimerQueueTimer` for "the callback has not been and will not be called" and releases the
reference of the system timer, but `TRUE` is also returned when the callback is already over, and then that
reference is gone (`C67_refs_fails`). Proved for schedules in which no callback ends between the two lines
146 and 154 of a cancellation of its timer.
-/
namespace Verif.PoolTimer
open Verif.Common

/-- Everybody who has a reference to the timer and will use it: threads by what they still have to release,
and system timers that will hand their reference to their callback. -/
def owners (s : St) : Nat := sumBy held s.ths + (s.os.filter (· = .armed)).length

theorem hOs_sum (os : List Os) : sumBy hOs os = (os.filter (· = .armed)).length := by
  induction os with
  | nil => rfl
  | cons o os ih => cases o <;> simp [hOs, ih] <;> omega

/-- **C67** (schedules without the window): in every reachable state the counter is the number of owners;
the object was never used after its counter had reached zero; it is gone exactly when nobody refers to it. -/
theorem C67_refs_partial {s : St} (h : Reach false s) :
    s.ref = owners s ∧ s.bad = false ∧ (s.ref = 0 ↔ owners s = 0) := by
  have I := reach_inv h
  have : s.ref = owners s := by rw [I.ref, hOs_sum]; rfl
  exact ⟨this, I.bad, by rw [this]⟩

/-- **C67** (schedules without the window): whoever has a reference finds the object alive. -/
theorem C67_alive_partial {s : St} (h : Reach false s) :
    (∀ p ∈ s.ths, 1 ≤ held p → 1 ≤ s.ref) ∧ (.armed ∈ s.os → 1 ≤ s.ref) := by
  have I := reach_inv h
  constructor
  · intro p hp hh
    have := le_sumBy_of_mem held s.ths p hp
    have := I.ref; omega
  · intro ha
    have := le_sumBy_of_mem hOs s.os _ ha
    have := I.ref; simp [hOs] at *; omega

/-- **C67** (schedules without the window): no handle of a system timer is lost. A system timer whose callback
has ended is deleted, and one that has not fired yet, or fires and was not deleted, has its handle in
`hThreadPoolTimer` or with exactly one thread that is about to delete it. -/
theorem C67_handles_partial {s : St} (h : Reach false s) (g : Nat) (o : Os) (ho : s.os[g]? = some o) :
    (o = .fired → False) ∧
    (o = .armed ∨ o = .firing false → (if s.slot = some g then 1 else 0) + sumBy (tk g) s.ths = 1) := by
  have I := reach_inv h
  constructor
  · intro hf
    subst hf
    -- `fired` does not occur: the callback's end finds its timer marked for deletion
    have key : ∀ s, Reach false s → ∀ g : Nat, s.os[g]? ≠ some .fired := by
      intro s h
      induction h with
      | init => intro g; simp [init]
      | step hr st ih =>
        have I := reach_inv hr
        intro g hg
        cases st with
        | create i p =>
          rcases Nat.lt_or_ge g (List.length _) with hl | hl
          · rw [List.getElem?_append_left hl] at hg; exact ih g hg
          · rw [List.getElem?_append_right hl] at hg
            rename_i s0
            cases hk : g - s0.os.length with
            | zero => rw [hk] at hg; cases hg
            | succ n => rw [hk] at hg; cases hg
        | fire k p =>
          by_cases hh : k = g
          · subst hh; rw [os_set_eq p] at hg; cases hg
          · rw [os_set_ne _ _ _ _ hh] at hg; exact ih g hg
        | del i k o p q =>
          by_cases hh : k = g
          · subst hh; rw [os_set_eq q] at hg; cases o <;> simp [delOs] at hg
          · rw [os_set_ne _ _ _ _ hh] at hg; exact ih g hg
        | armDel i k o p q =>
          by_cases hh : k = g
          · subst hh; rw [os_set_eq q] at hg; cases o <;> simp [delOs] at hg
          · rw [os_set_ne _ _ _ _ hh] at hg; exact ih g hg
        | cbDel i k k' o p q =>
          by_cases hh : k' = g
          · subst hh; rw [os_set_eq q] at hg; cases o <;> simp [delOs] at hg
          · rw [os_set_ne _ _ _ _ hh] at hg; exact ih g hg
        | cbEnd i k o p q w =>
          by_cases hh : k = g
          · subst hh
            rw [os_set_eq q] at hg
            have J := inv_step I (Step.cbEnd _ i k o p q w)
            -- if it were not marked, its handle would still be somewhere
            cases o with
            | firing b =>
              cases b with
              | true => simp [endOs] at hg
              | false =>
                have h1 := I.cnt k; have h2 := J.cnt k
                rw [q] at h1; dsimp only at h2; rw [os_set_eq q] at h2
                have h3 := sum_set (tk k) p .over
                simp [tgt, endOs, tk] at h1 h2 h3
                omega
            | armed =>
              have h1 := I.cbs k; have h2 := le_sumBy (cbOf k) _ _ _ p
              rw [q] at h1; simp [cbn, cbOf] at h1 h2; omega
            | fired => exact ih k q
            | gone =>
              have h1 := I.cbs k; have h2 := le_sumBy (cbOf k) _ _ _ p
              rw [q] at h1; simp [cbn, cbOf] at h1 h2; omega
          · rw [os_set_ne _ _ _ _ hh] at hg; exact ih g hg
        | _ => exact ih g hg
    exact key s h g ho
  · intro hh
    have := I.cnt g
    rw [ho] at this
    rcases hh with rfl | rfl <;> simpa [slotN, tgt] using this

/-- Something that leads to a run of the timer's callback: an armed system timer, a callback of the pool that
has not dispatched yet, a task in a queue, or a call of `SetTimerInternal` under way. -/
def pending (s : St) : Nat := sumBy flow s.ths + (s.os.filter (· = .armed)).length

theorem flow_step {w} {s s' : St} (st : Step w s s') (h : sumBy flow s.ths + sumBy hOs s.os ≤ 1) :
    sumBy flow s'.ths + sumBy hOs s'.os ≤ 1 := by
  cases st with
  | dup i p => simp only [sumBy_append]; simp [flow]; omega
  | del i k o p q =>
    have := sum_set hOs q (delOs o)
    have : hOs (delOs o) ≤ hOs o := by cases o <;> simp [hOs, delOs]
    have := sum_set flow p (if delRet o then .rel else .user)
    have : flow (if delRet o then .rel else .user) = 0 := by split <;> rfl
    simp [flow] at *; omega
  | armDel i k o p q =>
    have := sum_set hOs q (delOs o)
    have : hOs (delOs o) ≤ hOs o := by cases o <;> simp [hOs, delOs]
    have := sum_set flow p (if delRet o then .armRel else .due)
    have : flow (if delRet o then .armRel else .due) = 1 := by split <;> rfl
    simp [flow] at *; omega
  | create i p =>
    have := sum_set flow p .drop
    simp only [sumBy_append]; simp [flow, hOs] at *; omega
  | fire k p =>
    have := sum_set hOs p (.firing false)
    simp only [sumBy_append]; simp [flow, hOs] at *; omega
  | cbDel i k g o p q =>
    have := sum_set hOs q (delOs o)
    have : hOs (delOs o) ≤ hOs o := by cases o <;> simp [hOs, delOs]
    have := sum_set flow p (.cbDisp k)
    simp [flow] at *; omega
  | cbPost i k p q =>
    have := sum_set flow p (.cbEnd k)
    simp only [sumBy_append]; simp [flow] at *; omega
  | cbEnd i k o p q _ =>
    have := sum_set hOs q (endOs o)
    have : hOs (endOs o) = 0 := by
      cases o with
      | firing b => cases b <;> rfl
      | _ => rfl
    have := sum_set flow p .over
    simp [flow] at *; omega
  | rearm i p q =>
    have := sum_set flow p .drop
    simp only [sumBy_append]; simp [flow] at *; omega
  | leave i p => have := sum_set flow p .drop; simp [flow] at *; omega
  | drop i p => have := sum_set flow p .over; simp [flow] at *; omega
  | cancel i p => have := sum_set flow p .cancel; simp [flow] at *; omega
  | takeNone i p q => have := sum_set flow p .user; simp [flow] at *; omega
  | takeSome i k p q => have := sum_set flow p (.took k); simp [flow] at *; omega
  | relCancel i p => have := sum_set flow p .user; simp [flow] at *; omega
  | setCancel i p q => have := sum_set flow p .drop; simp [flow] at *; omega
  | setPost i p q => have := sum_set flow p .queued; simp [flow] at *; omega
  | setArm i p q => have := sum_set flow p .arm; simp [flow] at *; omega
  | armNone i p q => have := sum_set flow p .due; simp [flow] at *; omega
  | armSome i k p q => have := sum_set flow p (.armTook k); simp [flow] at *; omega
  | armRel i p => have := sum_set flow p .due; simp [flow] at *; omega
  | dueNow i p q => have := sum_set flow p .queued; simp [flow] at *; omega
  | dueDrop i p => have := sum_set flow p .drop; simp [flow] at *; omega
  | createFail i p => have := sum_set flow p .drop; simp [flow] at *; omega
  | cbNone i k p q => have := sum_set flow p (.cbDisp k); simp [flow] at *; omega
  | cbSome i k g p q => have := sum_set flow p (.cbTook k g); simp [flow] at *; omega
  | cbRefuse i k p => have := sum_set flow p (.cbDrop k); simp [flow] at *; omega
  | cbRel i k p => have := sum_set flow p (.cbEnd k); simp [flow] at *; omega
  | runEnd i p => have := sum_set flow p .drop; simp [flow] at *; omega

/-- **C67** (all schedules): a timer is pending at most once. It is never armed twice, nor armed while a run
of it waits in a queue, nor in two queues. -/
theorem C67_single {w} {s : St} (h : Reach w s) : pending s ≤ 1 := by
  have : sumBy flow s.ths + sumBy hOs s.os ≤ 1 := by
    induction h with
    | init => decide
    | step _ st ih => exact flow_step st ih
  simpa [pending, hOs_sum] using this

/-- **C67** (all schedules): a cancelled timer is not passed on to a runner and not armed again by its task:
no step from a cancelled state leads to a new entry in a queue or to a new call of `SetTimerInternal`. -/
theorem C67_canceled {w} {s s' : St} (st : Step w s s') (hc : s.canceled = true) :
    s'.canceled = true ∧
    sumBy (fun p => if p = .queued ∨ p = .set then 1 else 0) s'.ths ≤
      sumBy (fun p => if p = .queued ∨ p = .set then 1 else 0) s.ths := by
  have key : ∀ (i : Nat) (y x : Pc), s.ths[i]? = some y → ¬ (x = .queued ∨ x = .set) →
      sumBy (fun p => if p = .queued ∨ p = .set then 1 else 0) (s.ths.set i x) ≤
        sumBy (fun p => if p = .queued ∨ p = .set then 1 else 0) s.ths := by
    intro i y x hy hx
    have := sum_set (fun p => if p = .queued ∨ p = .set then 1 else 0) hy x
    rw [if_neg hx] at this; omega
  cases st with
  | dup i p => exact ⟨hc, by simp only [sumBy_append]; simp⟩
  | fire k p => exact ⟨hc, by simp only [sumBy_append]; simp⟩
  | cancel i p => exact ⟨rfl, key i _ _ p (by simp)⟩
  | del i k o p q => exact ⟨hc, key i _ _ p (by split <;> simp)⟩
  | armDel i k o p q => exact ⟨hc, key i _ _ p (by split <;> simp)⟩
  | setPost i p q => rw [hc] at q; cases q
  | setArm i p q => rw [hc] at q; cases q
  | dueNow i p q => rw [hc] at q; cases q
  | cbPost i k p q => rw [hc] at q; cases q
  | rearm i p q => rw [hc] at q; cases q
  | _ => refine ⟨hc, key _ _ _ (by assumption) (by simp)⟩

/-! ## Witnesses -/

theorem Reach.cast {w} {s t : St} (h : Reach w s) (e : s = t) : Reach w t := e ▸ h

/-- An armed timer with one user: the usual state of a timer returned by `CreateTimer`. -/
theorem demo_armed (w : Bool) : Reach w { slot := some 0, os := [.armed], ref := 2, ths := [.user, .over] } := by
  have r1 := Reach.step (win := w) .init (Step.setArm _ 1 rfl rfl)
  have r2 := Reach.step r1 (Step.armNone _ 1 rfl rfl)
  have r3 := Reach.step r2 (Step.create _ 1 rfl)
  have r4 := Reach.step r3 (Step.drop _ 1 rfl)
  exact r4.cast (by decide)

/-- It fires, is passed on and armed again while its user cancels: nothing special. -/
theorem demo_cancel : Reach false { slot := none, os := [.gone], ref := 1, canceled := true, ths := [.user, .over] } := by
  have r1 := Reach.step (demo_armed false) (Step.cancel _ 0 rfl)
  have r2 := Reach.step r1 (Step.takeSome _ 0 0 rfl rfl)
  have r3 := Reach.step r2 (Step.del _ 0 0 .armed rfl rfl)
  have r4 := Reach.step r3 (Step.relCancel _ 0 rfl)
  exact r4.cast (by decide)

/-- **C67 fails**: the user cancels; after line 146 took the handle the timer fires and its whole callback
runs, giving back the system timer's reference; `DeleteTimerQueueTimer` then returns `TRUE` and 156 releases
a reference nobody owns. The user still has theirs, but the object is destroyed. -/
theorem C67_refs_fails : ∃ s, Reach true s ∧ .user ∈ s.ths ∧ s.ref = 0 := by
  have r1 := Reach.step (demo_armed true) (Step.cancel _ 0 rfl)
  have r2 := Reach.step r1 (Step.takeSome _ 0 0 rfl rfl)
  have r3 := Reach.step r2 (Step.fire _ 0 rfl)
  have r4 := Reach.step r3 (Step.cbNone _ 2 0 rfl rfl)
  have r5 := Reach.step r4 (Step.cbRefuse _ 2 0 rfl)
  have r6 := Reach.step r5 (Step.cbRel _ 2 0 rfl)
  have r7 := Reach.step r6 (Step.cbEnd _ 2 0 (.firing false) rfl rfl (by intro h; cases h))
  have r8 := Reach.step r7 (Step.del _ 0 0 .fired rfl rfl)
  have r9 := Reach.step r8 (Step.relCancel _ 0 rfl)
  exact ⟨_, r9, by decide, by decide⟩

/-- And it is used after that: the user's next copy of their reference works on freed memory. -/
theorem C67_use_after_free_fails : ∃ s, Reach true s ∧ s.bad = true := by
  obtain ⟨s, hr, hu, h0⟩ := C67_refs_fails
  obtain ⟨i, hi⟩ := List.getElem?_of_mem hu
  exact ⟨_, .step hr (Step.dup s i hi), by simp [acc, h0]⟩

end Verif.PoolTimer
