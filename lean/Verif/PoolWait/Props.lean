import Verif.PoolWait.Lemmas

/-!
# C71: references and registrations of a wait served by the thread pool

The claim is false as it stands, for three reasons: a second release of the registration's weak reference in the window between
582 and 594 (`C71_refs_fails`), a registration that nobody can ever end when the operation is dropped without `Cancel`
(`C71_leak_fails`), and a registration made after `Cancel` (`C71_cancel_fails`).
-/
namespace Verif.PoolWait
open Verif.Common

/-- Everybody who has a strong reference. -/
def strongs (s : St) : Nat := sumBy heldS s.ths

/-- Everybody who has a weak reference: threads, and registrations that will hand theirs to their callback. -/
def weaks (s : St) : Nat := sumBy heldW s.ths + (s.os.filter (· = .armed)).length

theorem hOs_sum (os : List Os) : sumBy hOs os = (os.filter (· = .armed)).length := by
  induction os with
  | nil => rfl
  | cons o os ih => cases o <;> simp [hOs, ih] <;> omega

/-- **C71** (schedules without the window): in every reachable state the counters are the numbers of owners, neither the object
nor its memory was used after its end, the object is destroyed exactly when there is no strong owner, and its memory is freed
exactly when there is no owner at all. -/
theorem C71_refs_partial {s : St} (h : Reach false s) :
    s.bad = false ∧ s.strong = strongs s ∧ s.weak = weaks s + (if strongs s = 0 then 0 else 1) ∧
    (s.weak = 0 ↔ strongs s = 0 ∧ weaks s = 0) := by
  have I := reach_inv h
  have h1 : s.strong = strongs s := I.str
  have h2 : s.weak = weaks s + (if strongs s = 0 then 0 else 1) := by
    have := I.wk
    rw [hOs_sum, common, h1] at this
    exact this
  refine ⟨I.bad, h1, h2, ?_⟩
  split at h2 <;> omega

theorem no_fired {s : St} (h : Reach false s) : s.strong ≠ 0 → ∀ g : Nat, s.os[g]? ≠ some .fired := by
  induction h with
  | init => intro _ g; simp [init]
  | step hr st ih =>
    have I := reach_inv hr
    intro hp g hg
    cases st with
    | create i p =>
      rcases Nat.lt_or_ge g (List.length _) with hl | hl
      · rw [List.getElem?_append_left hl] at hg; exact ih hp g hg
      · rw [List.getElem?_append_right hl] at hg
        rename_i s0
        cases hk : g - s0.os.length with
        | zero => rw [hk] at hg; cases hg
        | succ n => rw [hk] at hg; cases hg
    | fire k p =>
      by_cases hh : k = g
      · subst hh; rw [os_set_eq p] at hg; cases hg
      · rw [os_set_ne _ _ _ _ hh] at hg; exact ih hp g hg
    | del i k o p q =>
      by_cases hh : k = g
      · subst hh; rw [os_set_eq q] at hg; cases o <;> simp [delOs] at hg
      · rw [os_set_ne _ _ _ _ hh] at hg; exact ih hp g hg
    | armDel i k o p q =>
      by_cases hh : k = g
      · subst hh; rw [os_set_eq q] at hg; cases o <;> simp [delOs] at hg
      · rw [os_set_ne _ _ _ _ hh] at hg; exact ih hp g hg
    | cbDel i k k' o p q =>
      by_cases hh : k' = g
      · subst hh; rw [os_set_eq q] at hg; cases o <;> simp [delOs] at hg
      · rw [os_set_ne _ _ _ _ hh] at hg; exact ih hp g hg
    | cbEnd i k o p q w =>
      by_cases hh : k = g
      · subst hh
        rw [os_set_eq q] at hg
        have J := inv_step I (Step.cbEnd _ i k o p q w)
        cases o with
        | firing b =>
          cases b with
          | true => simp [endOs] at hg
          | false =>
            have h1 := I.cnt hp k; have h2 := J.cnt hp k
            rw [q] at h1; dsimp only at h2; rw [os_set_eq q] at h2
            have h3 := sum_set (tk k) p .over
            simp [tgt, endOs, tk] at h1 h2 h3
            omega
        | armed =>
          have h1 := I.cbs k; have h2 := le_sumBy (cbOf k) _ _ _ p
          rw [q] at h1; simp [cbn, cbOf] at h1 h2; omega
        | fired => exact ih hp k q
        | gone =>
          have h1 := I.cbs k; have h2 := le_sumBy (cbOf k) _ _ _ p
          rw [q] at h1; simp [cbn, cbOf] at h1 h2; omega
      · rw [os_set_ne _ _ _ _ hh] at hg; exact ih hp g hg
    | drop i p => exact ih (strong_pos I p rfl) g hg
    | dup i p => exact ih (strong_pos I p rfl) g hg
    | cbRelS i k p => exact ih (strong_pos I p rfl) g hg
    | cbGet i k p q => exact ih (by omega) g hg
    | rearm i j p q => exact ih (strong_pos I q rfl) g hg
    | _ => exact ih hp g hg

/-- **C71** (schedules without the window): while the operation lives no registration is lost: one whose callback has ended is
unregistered, and one that has not fired yet, or fires and was not unregistered, has its handle in `hThreadPoolWait` or with exactly
one thread that is about to unregister it. -/
theorem C71_handles_partial {s : St} (h : Reach false s) (hl : 0 < strongs s) (g : Nat) (o : Os) (ho : s.os[g]? = some o) :
    o ≠ .fired ∧
    (o = .armed ∨ o = .firing false → (if s.slot = some g then 1 else 0) + sumBy (tk g) s.ths = 1) := by
  have I := reach_inv h
  have hp : s.strong ≠ 0 := by have := I.str; unfold strongs at hl; omega
  refine ⟨fun e => no_fired h hp g (e ▸ ho), fun hh => ?_⟩
  have := I.cnt hp g
  rw [ho] at this
  rcases hh with rfl | rfl <;> simpa [slotN, tgt] using this

/-- Something that leads to a completion, or follows from one and may lead to the next registration. -/
def pending (s : St) : Nat := sumBy flow s.ths + (s.os.filter (· = .armed)).length

theorem sumflow_posted (st : Status) : sumBy flow (posted st) ≤ 1 := by cases st <;> simp [posted, flow]

theorem flow_step {w} {s s' : St} (st : Step w s s') (h : sumBy flow s.ths + sumBy hOs s.os ≤ 1) :
    sumBy flow s'.ths + sumBy hOs s'.os ≤ 1 := by
  have key : ∀ (i : Nat) (y x : Pc), s.ths[i]? = some y → flow x ≤ flow y →
      sumBy flow (s.ths.set i x) + sumBy hOs s.os ≤ 1 := by
    intro i y x hy hx; have := sum_set flow hy x; omega
  cases st with
  | dup i p => simp only [sumBy_append]; simp [flow]; omega
  | del i k o p q =>
    have := sum_set hOs q (delOs o)
    have : hOs (delOs o) ≤ hOs o := by cases o <;> simp [hOs, delOs]
    have := sum_set flow p (if delRet o then .rel else .user)
    have : flow (if delRet o then .rel else .user) = 0 := by split <;> rfl
    simp [flow] at *; omega
  | armDel i k o p q =>
    have := sum_set hOs q (delOs o)
    have : hOs (delOs o) ≤ hOs o := by cases o <;> simp [hOs, delOs]
    have := sum_set flow p (if delRet o then .armRel else .due)
    have : flow (if delRet o then .armRel else .due) = 1 := by split <;> rfl
    simp [flow] at *; omega
  | create i p =>
    have := sum_set flow p .drop
    simp only [sumBy_append]; simp [flow, hOs] at *; omega
  | fire k p =>
    have := sum_set hOs p (.firing false)
    simp only [sumBy_append]; simp [flow, hOs] at *; omega
  | cbDel i k g o p q =>
    have := sum_set hOs q (delOs o)
    have : hOs (delOs o) ≤ hOs o := by cases o <;> simp [hOs, delOs]
    have := sum_set flow p (.cbRes k)
    simp [flow] at *; omega
  | cbEnd i k o p q _ =>
    have := sum_set hOs q (endOs o)
    have : hOs (endOs o) = 0 := by
      cases o with
      | firing b => cases b <;> rfl
      | _ => rfl
    have := sum_set flow p .over
    simp [flow] at *; omega
  | dueNow i p =>
    have := sum_set flow p .drop; have := sumflow_posted s.status
    simp only [sumBy_append]; simp [flow] at *; omega
  | cbResolve i k p =>
    have := sum_set flow p (.cbDropS k); have := sumflow_posted s.status
    simp only [sumBy_append]; simp [flow] at *; omega
  | rearm i j p q => exact key _ _ _ p (by simp [flow])
  | _ => refine key _ _ _ (by assumption) (by simp [flow])

/-- **C71** (all schedules): the operation is registered at most once at a time, and not while a completion is on its way. -/
theorem C71_single {w} {s : St} (h : Reach w s) : pending s ≤ 1 := by
  have : sumBy flow s.ths + sumBy hOs s.os ≤ 1 := by
    induction h with
    | init => decide
    | step _ st ih => exact flow_step st ih
  simpa [pending, hOs_sum] using this

/-- posted completions -/
def isQ : Pc → Nat
  | .queued => 1
  | _ => 0

/-- how many posted completions there may be -/
def qOk : Status → Nat
  | .completed => 1
  | _ => 0

theorem queued_step {w} {s s' : St} (st : Step w s s') (h : sumBy isQ s.ths ≤ qOk s.status) :
    sumBy isQ s'.ths ≤ qOk s'.status := by
  have key : ∀ (i : Nat) (y x : Pc), s.ths[i]? = some y → isQ x = 0 → sumBy isQ (s.ths.set i x) ≤ qOk s.status := by
    intro i y x hy hx; have := sum_set isQ hy x; omega
  have hq1 : qOk s.status ≤ 1 := by cases s.status <;> simp [qOk]
  have post : ∀ (i : Nat) (y x : Pc), s.ths[i]? = some y → isQ x = 0 →
      sumBy isQ (s.ths.set i x ++ posted s.status) ≤ qOk (resolved s.status) := by
    intro i y x hy hx
    have := key i y x hy hx
    simp only [sumBy_append]
    cases hs : s.status <;> simp [hs, posted, resolved, qOk, isQ] at * <;> omega
  cases st with
  | dup i p => simp only [sumBy_append]; simp [isQ]; exact h
  | fire k p => simp only [sumBy_append]; simp [isQ]; exact h
  | cancel i p q => have := key i _ .cancel p rfl; rw [q] at this; simpa [qOk] using this
  | del i k o p q => exact key _ _ _ p (by split <;> rfl)
  | armDel i k o p q => exact key _ _ _ p (by split <;> rfl)
  | dueNow i p => exact post _ _ _ p rfl
  | cbResolve i k p => exact post _ _ _ p rfl
  | createFail i p =>
    have := key i _ .drop p rfl
    by_cases hs : s.status = .started
    · rw [hs] at this; simpa [hs, qOk] using this
    · simpa [hs] using this
  | rearm i j p q =>
    have := sum_set isQ p .set
    simp [isQ] at this
    simp [qOk]; omega
  | _ => exact key _ _ _ (by assumption) rfl

/-- **C71** (all schedules): a completion is passed on only by the one that won: while one is on its way the status is `Completed`, never
`Canceled` or `Error`, and there is only one. -/
theorem C71_completion {w} {s : St} (h : Reach w s) :
    (.queued ∈ s.ths → s.status = .completed) ∧ (s.ths.filter (· = .queued)).length ≤ 1 := by
  have hi : sumBy isQ s.ths ≤ qOk s.status := by
    induction h with
    | init => decide
    | step _ st ih => exact queued_step st ih
  have hq : sumBy isQ s.ths = (s.ths.filter (· = .queued)).length := by
    generalize s.ths = l
    induction l with
    | nil => rfl
    | cons a l ih => cases a <;> simp [isQ, ih] <;> omega
  refine ⟨fun hm => ?_, ?_⟩
  · have := le_sumBy_of_mem isQ s.ths _ hm
    cases hs : s.status <;> simp [hs, qOk, isQ] at * <;> omega
  · have : qOk s.status ≤ 1 := by cases s.status <;> simp [qOk]
    omega

/-- **C71** (all schedules): a cancelled wait stays cancelled: neither a callback on its way nor a failing registration changes it. -/
theorem C71_cancelled_stays {w} {s t : St} (h : Reach w s) (hc : s.status = .canceled) (st : Steps w s t) : t.status = .canceled := by
  have : Reach w t ∧ t.status = .canceled := by
    induction st with
    | refl => exact ⟨h, hc⟩
    | @tail y z _ h' ih =>
      refine ⟨ih.1.step h', ?_⟩
      have hs := ih.2
      cases h' with
      | cancel => rfl
      | dueNow i p => simp [hs, resolved]
      | cbResolve i k p => simp [hs, resolved]
      | createFail i p => simp [hs]
      | rearm i j p q =>
        have := (C71_completion ih.1).1 (List.mem_of_getElem? p)
        rw [hs] at this; cases this
      | _ => exact hs
  exact this.2


/-! ## Witnesses -/

theorem Reach.cast {w} {s t : St} (h : Reach w s) (e : s = t) : Reach w t := e ▸ h

/-- A registered operation with one user: the usual state after `WaitForObjectAsync`. -/
theorem demo_armed (w : Bool) : Reach w { slot := some 0, os := [.armed], strong := 1, weak := 2, ths := [.user, .over] } := by
  have r1 := Reach.step (win := w) .init (Step.setArm _ 1 rfl (by decide))
  have r2 := Reach.step r1 (Step.armNone _ 1 rfl rfl)
  have r3 := Reach.step r2 (Step.create _ 1 rfl)
  have r4 := Reach.step r3 (Step.drop _ 1 rfl)
  exact r4.cast (by decide)

/-- It fires and completes. -/
theorem demo_fires : Reach false
    ⟨none, [.gone], 1, 1, .completed, false, [.user, .over, .over, .queued]⟩ := by
  have r1 := Reach.step (demo_armed false) (Step.fire _ 0 rfl)
  have r2 := Reach.step r1 (Step.cbGet _ 2 0 rfl (by decide))
  have r3 := Reach.step r2 (Step.cbSome _ 2 0 0 rfl rfl)
  have r4 := Reach.step r3 (Step.cbDel _ 2 0 0 (.firing false) rfl rfl)
  have r5 := Reach.step r4 (Step.cbResolve _ 2 0 rfl)
  have r6 := Reach.step r5 (Step.cbRelS _ 2 0 rfl)
  have r7 := Reach.step r6 (Step.cbRelW _ 2 0 rfl)
  have r8 := Reach.step r7 (Step.cbEnd _ 2 0 (.firing true) rfl rfl (by intro _ p hp; revert p hp; decide))
  exact r8.cast (by decide)

/-- **C71 fails**: the user cancels; after 582 took the handle the wait fires and its whole callback runs, giving back the
registration's weak reference; `UnregisterWaitEx` then returns `TRUE` and 596 releases a weak reference nobody owns. The user still
has a strong reference, but the memory is freed. -/
theorem C71_refs_fails : ∃ s, Reach true s ∧ .user ∈ s.ths ∧ s.weak = 0 := by
  have r1 := Reach.step (demo_armed true) (Step.cancel _ 0 rfl rfl)
  have r2 := Reach.step r1 (Step.takeSome _ 0 0 rfl rfl)
  have r3 := Reach.step r2 (Step.fire _ 0 rfl)
  have r4 := Reach.step r3 (Step.cbGet _ 2 0 rfl (by decide))
  have r5 := Reach.step r4 (Step.cbNone _ 2 0 rfl rfl)
  have r6 := Reach.step r5 (Step.cbResolve _ 2 0 rfl)
  have r7 := Reach.step r6 (Step.cbRelS _ 2 0 rfl)
  have r8 := Reach.step r7 (Step.cbRelW _ 2 0 rfl)
  have r9 := Reach.step r8 (Step.cbEnd _ 2 0 (.firing false) rfl rfl (by intro h; cases h))
  have ra := Reach.step r9 (Step.del _ 0 0 .fired rfl rfl)
  have rb := Reach.step ra (Step.relCancel _ 0 rfl)
  exact ⟨_, rb, by decide, by decide⟩

/-- And it is used after that. -/
theorem C71_use_after_free_fails : ∃ s, Reach true s ∧ s.bad = true := by
  obtain ⟨s, hr, hu, h0⟩ := C71_refs_fails
  obtain ⟨i, hi⟩ := List.getElem?_of_mem hu
  exact ⟨_, .step hr (Step.dup s i hi), by simp [acc, h0]⟩

/-- Registration `h` exists, nobody asked to end it, and nobody has a strong reference. -/
def Leak (h : Nat) (s : St) : Prop :=
  s.strong = 0 ∧ sumBy heldS s.ths = 0 ∧ ∃ o, s.os[h]? = some o ∧ o ≠ .gone ∧ o ≠ .firing true

theorem leak_step {w} {h : Nat} {s s' : St} (L : Leak h s) (st : Step w s s') : Leak h s' := by
  obtain ⟨h0, hS, o, ho, h1, h2⟩ := L
  have no : ∀ {i : Nat} {y : Pc}, s.ths[i]? = some y → heldS y = 1 → False := by
    intro i y hy hh; have := le_sumBy heldS s.ths i y hy; omega
  have key : ∀ (i : Nat) (y x : Pc), s.ths[i]? = some y → heldS x = heldS y → sumBy heldS (s.ths.set i x) = 0 := by
    intro i y x hy hx; have := sum_set heldS hy x; omega
  cases st with
  | fire k p =>
    refine ⟨h0, by simp only [sumBy_append]; simp [heldS]; omega, ?_⟩
    by_cases hk : k = h
    · subst hk; exact ⟨_, os_set_eq p _, by simp, by simp⟩
    · exact ⟨o, by rw [os_set_ne _ _ _ _ hk]; exact ho, h1, h2⟩
  | cbGet i k p q => omega
  | cbExpired i k p q => exact ⟨h0, key _ _ _ p rfl, o, ho, h1, h2⟩
  | cbRelW i k p => exact ⟨h0, key _ _ _ p rfl, o, ho, h1, h2⟩
  | cbEnd i k o' p q _ =>
    refine ⟨h0, key _ _ _ p rfl, ?_⟩
    by_cases hk : k = h
    · subst hk
      rw [q] at ho; cases ho
      refine ⟨_, os_set_eq q _, ?_, ?_⟩ <;> (cases o with
        | firing b => cases b <;> simp_all [endOs]
        | _ => simp_all [endOs])
    · exact ⟨o, by rw [os_set_ne _ _ _ _ hk]; exact ho, h1, h2⟩
  | runEnd j p => exact ⟨h0, key _ _ _ p rfl, o, ho, h1, h2⟩
  | rearm i j p q => exact (no q rfl).elim
  | _ => exact (no (by assumption) rfl).elim

/-- **C71 fails**: if the `Task` of a wait is dropped without `Cancel`, its registration with the system is never ended, not even
after it has fired: the callback finds the object destroyed (149) and returns without `UnregisterWaitEx`. -/
theorem C71_leak_fails : ∃ s, Reach false s ∧ s.os[0]? = some .armed ∧
    ∀ w t, Steps w s t → ∃ o, t.os[0]? = some o ∧ o ≠ .gone := by
  have r1 := Reach.step (demo_armed false) (Step.leave _ 0 rfl)
  have r2 := Reach.step r1 (Step.drop _ 0 rfl)
  refine ⟨_, r2, rfl, fun w t hs => ?_⟩
  have : Leak 0 t := by
    induction hs with
    | refl => exact ⟨rfl, rfl, .armed, rfl, by decide, by decide⟩
    | tail _ st ih => exact leak_step ih st
  obtain ⟨_, _, o, ho, h, _⟩ := this
  exact ⟨o, ho, h⟩

/-- **C71 fails**: `Cancel` is over and reports success, and afterwards the handle is registered with the system all the same: the
test of 386 was before the cancellation. -/
theorem C71_cancel_fails : ∃ s, Reach false s ∧ s.status = .canceled ∧ s.ths = [.user, .drop] ∧ s.os = [.armed] := by
  have r1 := Reach.step (win := false) .init (Step.setArm _ 1 rfl (by decide))
  have r2 := Reach.step r1 (Step.cancel _ 0 rfl rfl)
  have r3 := Reach.step r2 (Step.takeNone _ 0 rfl rfl)
  have r4 := Reach.step r3 (Step.armNone _ 1 rfl rfl)
  have r5 := Reach.step r4 (Step.create _ 1 rfl)
  exact ⟨_, r5, rfl, rfl, rfl⟩

end Verif.PoolWait
