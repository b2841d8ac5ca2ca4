import Verif.Async.Lemmas
/-! # C49, C50: asynchronous operations -/
namespace Verif.Async
open Verif.Common

/-- All threads are outside the operation's functions. -/
def Quiet (s : St) : Prop := ∀ t ∈ s.threads, t = .idle

/-- C49. In every reachable state (any number of threads, any interleaving):
* at most one completing call has won, and the status is `Started` iff none has, else the winner's;
* a handler is called at most once, never after a successful removal, only if its registration was accepted, and only when a completing call has won;
* a registration is refused only after completion;
* when all calls have returned and the operation is complete, every accepted handler that was not removed has been called exactly once. -/
theorem C49_complete_once (s : St) (h : Reach s) :
    (s.wins = [] ∧ s.status = .started ∨ ∃ k, s.wins = [k] ∧ s.status = k.status ∧ s.status ≠ .started) ∧
    (∀ x, s.called.count x ≤ 1 ∧ (x ∈ s.called → x ∈ s.accepted ∧ x ∉ s.removed ∧ x ∉ s.refused ∧ s.status ≠ .started)) ∧
    (s.refused ≠ [] → s.status ≠ .started) ∧
    (Quiet s → s.status ≠ .started → ∀ x ∈ s.accepted, x ∉ s.removed → s.called.count x = 1) := by
  have ⟨w, g, T, pre1, pre0, done, lock, push, uniq, cnt1, cnt2, cnt3, cnt4, outs, calledFin, refusedSt⟩ := inv_reach h
  refine ⟨?_, ?_, refusedSt, ?_⟩
  · rcases w with w | ⟨k, w1, w2⟩
    · exact .inl w
    · exact .inr ⟨k, w1, w2, w2 ▸ k.status_ne⟩
  · intro x
    have := uniq x; have := cnt1 x; have := cnt2 x; have := cnt3 x
    refine ⟨by omega, fun hx => ?_⟩
    have hp := List.count_pos_iff.2 hx
    refine ⟨List.count_pos_iff.1 (by omega), fun hm => ?_, fun hm => ?_, ?_⟩
    · have := List.count_pos_iff.2 hm; omega
    · have := List.count_pos_iff.2 hm; omega
    · obtain ⟨k, _, hk, _⟩ := calledFin (List.ne_nil_of_mem hx)
      exact fun h => k.status_ne (hk ▸ h)
  · intro q hst x hx hr
    have hp := List.count_pos_iff.2 hx
    have hz := List.count_eq_zero.2 hr
    have hpre : sumBy isPre s.threads = 0 := (sumBy_eq_zero _ _).2 (fun t ht => by rw [q t ht]; rfl)
    have hl : sumBy (lst x) s.threads = 0 := (sumBy_eq_zero _ _).2 (fun t ht => by rw [q t ht]; rfl)
    obtain ⟨d1, -⟩ := done hst hpre
    have := uniq x; have := cnt1 x; have := cnt2 x
    have d2 : s.reg.count x = 0 := by simp [d1]
    omega

/-- C49, second part: the status never changes once the operation has completed. -/
theorem C49_status_final (s s' : St) (h : Reach s) (hs : Step s s') (hst : s.status ≠ .started) :
    s'.status = s.status ∧ s'.wins = s.wins := by
  cases hs with
  | win i k h hs => exact absurd hs hst
  | _ => exact ⟨rfl, rfl⟩

/-- C50, what holds: every attached and not removed continuation gets exactly one outcome once all calls have returned and the operation is complete, and the
outcome is the result or error of the completing call, except for continuations whose attaching call was refused before the completing call had published its
error code (`late = some false`); those may see a stale error (`C50_fails`), but never a wrong value. -/
theorem C50_outcome_partial (s : St) (h : Reach s) :
    (∀ o ∈ s.outcomes, o.2.1 ≠ some false → ∃ k, s.wins = [k] ∧ o.2.2 = expected k) ∧
    (Quiet s → s.status ≠ .started → ∀ x ∈ s.attached, x ∉ s.removed → (s.outcomes.map (·.1)).count x = 1) ∧
    (∀ x, (s.outcomes.map (·.1)).count x ≤ 1) := by
  have ⟨w, g, T, pre1, pre0, done, lock, push, uniq, cnt1, cnt2, cnt3, cnt4, outs, calledFin, refusedSt⟩ := inv_reach h
  refine ⟨fun o ho => (outs o ho).2, ?_, ?_⟩
  · intro q hst x hx hr
    have hp := List.count_pos_iff.2 hx
    have hz := List.count_eq_zero.2 hr
    have hpre : sumBy isPre s.threads = 0 := (sumBy_eq_zero _ _).2 (fun t ht => by rw [q t ht]; rfl)
    have h1 : sumBy (lst x) s.threads = 0 := (sumBy_eq_zero _ _).2 (fun t ht => by rw [q t ht]; rfl)
    have h2 : sumBy (pend x) s.threads = 0 := (sumBy_eq_zero _ _).2 (fun t ht => by rw [q t ht]; rfl)
    have h3 : sumBy (rfsd x) s.threads = 0 := (sumBy_eq_zero _ _).2 (fun t ht => by rw [q t ht]; rfl)
    have h4 : sumBy (inCall x) s.threads = 0 := (sumBy_eq_zero _ _).2 (fun t ht => by rw [q t ht]; rfl)
    obtain ⟨d1, -⟩ := done hst hpre
    have := uniq x; have := cnt1 x; have := cnt2 x; have := cnt3 x; have := cnt4 x
    have d2 : s.reg.count x = 0 := by simp [d1]
    omega
  · intro x
    have := uniq x; have := cnt1 x; have := cnt2 x; have := cnt3 x; have := cnt4 x
    omega

/-- C50 for successful operations, without exception: whenever the winner is `Resolve v`, every continuation runs with `v`. -/
theorem C50_value (s : St) (h : Reach s) (v : Nat) (hv : s.wins = [.resolve v]) : ∀ o ∈ s.outcomes, o.2.2 = .ran (some v) := by
  suffices hh : ∀ o ∈ s.outcomes, ∀ v, s.wins = [.resolve v] → o.2.2 = .ran (some v) from fun o ho => hh o ho v hv
  clear hv v
  induction h with
  | init s h => obtain ⟨n, rfl⟩ := h; intro o ho; simp at ho
  | step s s' hr hs ih =>
    have hI := inv_reach hr
    intro o ho v hv
    cases hs with
    | win i k h hs => exact absurd hs (hI.outs o ho).1
    | callOk i x late rest h hh =>
      rcases List.mem_cons.1 ho with rfl | ho
      · have hf : Fin s.core := by rcases hI.g with g | g; exact absurd g hh; exact g
        obtain ⟨k, h1, h2, h3, h4, h5⟩ := hf
        have : s.wins = [.resolve v] := hv
        rw [show s.wins = [k] from h1] at this
        cases this
        exact congrArg _ h5
      · exact ih o ho v hv
    | failE i x e late rest h =>
      rcases List.mem_cons.1 ho with rfl | ho
      · have := (hI.T i _ h).2.1
        have := (hI.ne_started (k := .resolve v) hv).1
        simp [Kind.status, St.core] at *; contradiction
      · exact ih o ho v hv
    | failH i x e late rest h =>
      rcases List.mem_cons.1 ho with rfl | ho
      · have := (hI.T i _ h).2.1
        have := (hI.ne_started (k := .resolve v) hv).1
        simp [Kind.status, St.core] at *; contradiction
      · exact ih o ho v hv
    | _ => exact ih o ho v hv

/-- C50 does not hold as stated: the operation fails with exception 7 and error 0x80070005, but a continuation attached while `SetExceptionPtr` is running (after its
compare-exchange) completes with no exception and `E_UNEXPECTED`. -/
theorem C50_fails : ∃ s, Reach s ∧ s.wins = [.exc 7 0x80070005] ∧ s.outcomes = [(1, some false, .failed none E_UNEXPECTED)] ∧
    Outcome.failed none E_UNEXPECTED ≠ expected (.exc 7 0x80070005) := by
  have r0 : Reach { threads := [.idle, .idle] } := .init _ ⟨2, rfl⟩
  have r1 := Reach.step _ _ r0 (.win _ 0 (.exc 7 0x80070005) rfl rfl)
  have r2 := Reach.step _ _ r1 (.addLock _ 1 1 rfl rfl (by simp))
  have r3 := Reach.step _ _ r2 (.addRefuse _ 1 1 rfl (by simp [Kind.status]))
  have r4 := Reach.step _ _ r3 (.lateCall _ 1 1 false rfl)
  have r5 := Reach.step _ _ r4 (.readEptr _ 1 1 .error (some false) [] rfl (by simp))
  have r6 := Reach.step _ _ r5 (.failE _ 1 1 none (some false) [] rfl)
  exact ⟨_, r6, rfl, rfl, by simp [expected, Kind.eptr]⟩

/-- The same with `Cancel`: a continuation of a cancelled operation completes with `E_UNEXPECTED` instead of the cancellation error. -/
theorem C50_cancel_fails : ∃ s, Reach s ∧ s.wins = [.cancel] ∧ s.outcomes = [(1, some false, .failed none E_UNEXPECTED)] ∧
    expected .cancel = .failed none 0x800704C7 ∧ E_UNEXPECTED = 0x8000FFFF := by
  have r0 : Reach { threads := [.idle, .idle] } := .init _ ⟨2, rfl⟩
  have r1 := Reach.step _ _ r0 (.win _ 0 .cancel rfl rfl)
  have r2 := Reach.step _ _ r1 (.addLock _ 1 1 rfl rfl (by simp))
  have r3 := Reach.step _ _ r2 (.addRefuse _ 1 1 rfl (by simp [Kind.status]))
  have r4 := Reach.step _ _ r3 (.lateCall _ 1 1 false rfl)
  have r5 := Reach.step _ _ r4 (.readEptr _ 1 1 .canceled (some false) [] rfl (by simp))
  have r6 := Reach.step _ _ r5 (.failE _ 1 1 none (some false) [] rfl)
  exact ⟨_, r6, rfl, rfl, rfl, rfl⟩

/-- Non-vacuity: thread 1 attaches handler 5 while thread 0 completes with value 42 (compare-exchange between the attacher's status read and its push);
handler 5 is accepted and is called once with 42; everything is quiet at the end. -/
example : ∃ s, Reach s ∧ Quiet s ∧ s.status ≠ .started ∧ s.accepted = [5] ∧ s.called = [5] ∧ s.outcomes = [(5, none, .ran (some 42))] := by
  have r0 : Reach { threads := [.idle, .idle] } := .init _ ⟨2, rfl⟩
  have r1 := Reach.step _ _ r0 (.addLock _ 1 5 rfl rfl (by simp))
  have r2 := Reach.step _ _ r1 (.addOk _ 1 5 rfl rfl)
  have r3 := Reach.step _ _ r2 (.win _ 0 (.resolve 42) rfl rfl)
  have r4 := Reach.step _ _ r3 (.writeValue _ 0 _ rfl)
  have r5 := Reach.step _ _ r4 (.writeHr _ 0 _ rfl)
  have r6 := Reach.step _ _ r5 (.addPush _ 1 5 rfl)
  have r7 := Reach.step _ _ r6 (.swap _ 0 rfl rfl)
  have r8 := Reach.step _ _ r7 (.invoke _ 0 5 [] rfl)
  have r9 := Reach.step _ _ r8 (.callOk _ 0 5 none [] rfl (by simp [Kind.hr, S_OK, E_PENDING]))
  have r10 := Reach.step _ _ r9 (.invokeEnd _ 0 rfl)
  refine ⟨_, r10, ?_, by simp [Kind.status], rfl, rfl, rfl⟩
  intro t ht; simp at ht; exact ht

#print axioms C49_complete_once
#print axioms C49_status_final
#print axioms C50_outcome_partial
#print axioms C50_value
#print axioms C50_fails
#print axioms C50_cancel_fails
end Verif.Async
