import Verif.When.AllStep

namespace Verif.When.All
open Verif.Common
open Verif.Async (Status Kind E_PENDING S_OK E_CANCELLED E_UNEXPECTED norm)

/-- the task has succeeded: it is null or was resolved -/
def Succeeded (o : Op) : Prop := o.null = true ∨ ∃ v, o.kind = some (.resolve v)

/-- the task has failed with error code `e`: cancelled, or an error with a code that is neither "pending" nor "ok" (these two are replaced) -/
inductive FailedWith : Op → Nat → Prop
  | cancel (o : Op) : o.null = false → o.kind = some .cancel → FailedWith o E_CANCELLED
  | error (o : Op) (e : Nat) : o.null = false → (o.kind = some (.error e) ∨ ∃ x, o.kind = some (.exc x e)) → e ≠ E_PENDING → e ≠ S_OK → FailedWith o e
  | odd (o : Op) (e : Nat) : o.null = false → (o.kind = some (.error e) ∨ ∃ x, o.kind = some (.exc x e)) → (e = E_PENDING ∨ e = S_OK) → FailedWith o E_UNEXPECTED

theorem code_ok {o : Op} (hd : Done o) : code o = S_OK ↔ Succeeded o := by
  unfold code Succeeded
  by_cases hn : o.null = true
  · simp [hn]
  · rw [if_neg hn]
    cases hk : o.kind with
    | none => exact absurd hk (hd.resolve_left hn)
    | some k =>
      simp only [hn, false_or, kind_ok]
      cases k <;> simp [Kind.status]

theorem norm_cases (e : Nat) : (e ≠ E_PENDING ∧ e ≠ S_OK ∧ norm e = e) ∨ ((e = E_PENDING ∨ e = S_OK) ∧ norm e = E_UNEXPECTED) := by
  by_cases h : e = E_PENDING ∨ e = S_OK
  · exact .inr ⟨h, by unfold norm; rw [if_pos h]⟩
  · exact .inl ⟨fun a => h (.inl a), fun a => h (.inr a), by unfold norm; rw [if_neg h]⟩

theorem code_failed {o : Op} (hd : Done o) (hc : code o ≠ S_OK) : FailedWith o (code o) := by
  unfold code at hc ⊢
  by_cases hn : o.null = true
  · rw [if_pos hn] at hc; exact absurd rfl hc
  · rw [if_neg hn]
    have hn' : o.null = false := by simpa using hn
    cases hk : o.kind with
    | none => exact absurd hk (hd.resolve_left hn)
    | some k =>
      cases k with
      | resolve v => rw [if_neg hn, hk] at hc; exact absurd rfl hc
      | cancel => exact .cancel o hn' hk
      | error e =>
        show FailedWith o (norm e)
        rcases norm_cases e with ⟨h1, h2, h3⟩ | ⟨h1, h3⟩
        · rw [h3]; exact .error o e hn' (.inl hk) h1 h2
        · rw [h3]; exact .odd o e hn' (.inl hk) h1
      | exc x e =>
        show FailedWith o (norm e)
        rcases norm_cases e with ⟨h1, h2, h3⟩ | ⟨h1, h3⟩
        · rw [h3]; exact .error o e hn' (.inr ⟨x, hk⟩) h1 h2
        · rw [h3]; exact .odd o e hn' (.inr ⟨x, hk⟩) h1

/-- **C51 (partial).**  Whenever the operation has a result, all tasks are completed; the result is `S_OK` exactly if all succeeded; otherwise it is the error of the first
failing task in argument order, except that it may be `E_PENDING` if that task refused the handler before its error code was published (`C51_fails`). -/
theorem C51_result_partial (s : St) (h : Reach s) (r : Nat) (hr : s.own = some (some r)) :
    (∀ o ∈ s.ops, Done o) ∧ (r = S_OK ↔ ∀ o ∈ s.ops, Succeeded o) ∧
    (r ≠ S_OK → ∃ (k : Nat) (o : Op) (e : Nat), s.ops[k]? = some o ∧ FailedWith o e ∧ (∀ k' < k, ∀ o', s.ops[k']? = some o' → Succeeded o') ∧
      (r = e ∨ (r = E_PENDING ∧ k ∈ s.raced))) := by
  have hI := inv_reach h
  have h1 := hI.own r hr
  obtain ⟨h2, _, h3, h4⟩ := hI.fin (by rw [h1]; simp)
  rw [h1] at h2
  have e : r = s.first := by simpa using h2
  subst e
  have hd : ∀ (k : Nat) (o : Op), s.ops[k]? = some o → Done o := by
    intro k o ho
    obtain ⟨o', ho', d⟩ := h3 k (List.getElem?_eq_some_iff.1 ho).1
    rw [ho] at ho'; cases ho'; exact d
  refine ⟨fun o ho => ?_, ?_, ?_⟩
  · obtain ⟨k, hk⟩ := List.getElem?_of_mem ho
    exact hd k o hk
  · rcases h4 with ⟨a, b⟩ | ⟨a, k, o, hk, ho, hc, _⟩
    · refine ⟨fun _ o ho => ?_, fun _ => a⟩
      obtain ⟨k, hk⟩ := List.getElem?_of_mem ho
      exact (code_ok (hd k o hk)).1 (b k (List.getElem?_eq_some_iff.1 hk).1 o hk)
    · exact ⟨fun e => absurd e a, fun e => absurd ((code_ok (hd k o ho)).2 (e o (List.mem_of_getElem? ho))) hc⟩
  · intro hne
    rcases h4 with ⟨a, _⟩ | ⟨_, k, o, hk, ho, hc, hb, hv⟩
    · exact absurd a hne
    · exact ⟨k, o, code o, ho, code_failed (hd k o ho) hc, fun k' hk' o' ho' => (code_ok (hd k' o' ho')).1 (hb k' hk' o' ho'), hv⟩

/-- without such a race the result is the error of the first failing task -/
theorem C51_result_unraced (s : St) (h : Reach s) (r : Nat) (hr : s.own = some (some r)) (hn : s.raced = []) (hne : r ≠ S_OK) :
    ∃ (k : Nat) (o : Op), s.ops[k]? = some o ∧ FailedWith o r ∧ ∀ k' < k, ∀ o', s.ops[k']? = some o' → Succeeded o' := by
  obtain ⟨k, o, e, h1, h2, h3, h4⟩ := (C51_result_partial s h r hr).2.2 hne
  rcases h4 with rfl | ⟨_, h4⟩
  · exact ⟨k, o, h1, h2, h3⟩
  · rw [hn] at h4; cases h4

/-- **C51**: the operation is resolved at most once -/
theorem C51_once (s : St) (h : Reach s) : s.resolves.length ≤ 1 := by have := (inv_reach h).one; omega

/-- **C51**: when all tasks are completed and no thread is busy, the operation is completed (unless the user cancelled it, it then has a result by `C51_result_partial`) -/
theorem C51_completes (s : St) (h : Reach s) (hq : ∀ p ∈ s.threads, p = .idle) (hd : ∀ o ∈ s.ops, Done o) : s.own ≠ none := by
  have hI := inv_reach h
  have h1 : sumBy tok s.threads = 0 := (sumBy_eq_zero _ _).2 fun p hp => by rw [hq p hp]; rfl
  have h2 : sumBy tokL s.ops = 0 := (sumBy_eq_zero _ _).2 fun o ho => by
    obtain ⟨j, hj⟩ := List.getElem?_of_mem ho
    cases hl : o.listed with
    | false => simp [tokL, hl]
    | true =>
      have hn := (hI.L j o hj hl).2
      have hk : o.kind ≠ none := (hd o ho).resolve_left (by simp [hn])
      obtain ⟨i, hi⟩ := hI.wake j o hj hk (.inl hl)
      rcases hi with hi | ⟨k, hi⟩ <;> · have := hq _ (List.mem_of_getElem? hi); cases this
  have := hI.one
  exact hI.own' (fun e => by rw [e] at this; simp at this; omega)

/-- the thread is about to touch the operation object -/
def Touches (p : PC) : Prop := tok p = 1 ∨ ∃ h, p = .unwind (h + 1)

/-- **C51, bookkeeping**: no thread touches the operation after it was destroyed, it is destroyed at most once, and it is destroyed when the user has dropped it, all
tasks are completed and no thread is busy. -/
theorem C51_lifetime (s : St) (h : Reach s) :
    (∀ p ∈ s.threads, Touches p → s.freed = 0) ∧ s.freed ≤ 1 ∧ (s.user ≠ 0 → s.freed = 0) ∧
    ((∀ p ∈ s.threads, p = .idle) → (∀ o ∈ s.ops, Done o) → s.user = 0 → s.freed = 1) := by
  have hI := inv_reach h
  have hf := hI.freed
  refine ⟨fun p hp ht => ?_, by rw [hf]; split <;> omega, fun hu => ?_, fun hq hd hu => ?_⟩
  · obtain ⟨i, hi⟩ := List.getElem?_of_mem hp
    rcases ht with ht | ⟨n, rfl⟩
    · rw [hf, if_neg (ref_pos (hI.T i p hi) hi ht hI.ref hI.user)]
    · have := le_sumBy held _ _ _ hi
      have := hI.ref
      simp only [held] at *
      rw [hf, if_neg (by omega)]
  · have := hI.ref
    rw [hf, if_neg (by omega)]
  · have h1 : sumBy held s.threads = 0 := (sumBy_eq_zero _ _).2 fun p hp => by rw [hq p hp]; rfl
    have h2 : sumBy tokL s.ops = 0 := (sumBy_eq_zero _ _).2 fun o ho => by
      obtain ⟨j, hj⟩ := List.getElem?_of_mem ho
      cases hl : o.listed with
      | false => simp [tokL, hl]
      | true =>
        have hn := (hI.L j o hj hl).2
        have hk : o.kind ≠ none := (hd o ho).resolve_left (by simp [hn])
        obtain ⟨i, hi⟩ := hI.wake j o hj hk (.inl hl)
        rcases hi with hi | ⟨k, hi⟩ <;> · have := hq _ (List.mem_of_getElem? hi); cases this
    have := hI.ref
    rw [hf, if_pos (by omega)]

/-- **C51**: the counter and the error are only touched by one thread at a time (they are plain variables) -/
theorem C51_exclusive (s : St) (h : Reach s) (i j : Nat) (p q : PC) (hp : s.threads[i]? = some p) (hq : s.threads[j]? = some q) (h1 : tok p = 1) (h2 : tok q = 1) : i = j := by
  refine Classical.byContradiction fun e => ?_
  have := (no_other (inv_reach h) hp h1).1 j q e hq
  omega

/-- **C51 fails**: the only task has failed with 0x80070005; `WhenAll` is called after the status was set and before the error code is published: the result is `E_PENDING` -/
theorem C51_fails : ∃ s, Reach s ∧ s.own = some (some E_PENDING) ∧ s.ops.map Op.kind = [some (.error 0x80070005)] := by
  have r0 : Reach { ops := [{ null := false }], pend := 1, threads := [.install 0, .idle] } := .init _ ⟨[false], 1, by simp, rfl⟩
  have r1 := Reach.step _ _ r0 (.win _ 1 0 (.error 0x80070005) _ rfl rfl rfl rfl)
  have r2 := Reach.step _ _ r1 (.install _ 0 0 rfl (by simp))
  have r3 := Reach.step _ _ r2 (.addLock _ 0 0 0 _ rfl rfl rfl rfl)
  have r4 := Reach.step _ _ r3 (.addRefuse _ 0 0 0 _ rfl rfl (by simp [Op.status, Kind.status]))
  have r5 := Reach.step _ _ r4 (.refused _ 0 0 0 _ rfl rfl)
  have r6 := Reach.step _ _ r5 (.handlerErr _ 0 0 1 .error _ rfl (by simp) (by simp) rfl)
  have r7 := Reach.step _ _ r6 (.cas _ 0 0 E_PENDING 1 rfl)
  have r8 := Reach.step _ _ r7 (.dec _ 0 0 1 rfl)
  have r9 := Reach.step _ _ r8 (.resolve _ 0 1 rfl)
  exact ⟨_, r9, rfl, rfl⟩

/-- an ordinary history: the first task is cancelled after `WhenAll` has listed its handler, the second succeeds later; the user drops the result.  The result is the
cancellation error and the object is destroyed. -/
theorem C51_case : ∃ s, Reach s ∧ s.own = some (some E_CANCELLED) ∧ s.ops.map Op.kind = [some .cancel, some (.resolve 7)] ∧ s.freed = 1 ∧
    (∀ p ∈ s.threads, p = .idle) := by
  have r0 : Reach { ops := [{ null := false }, { null := false }], pend := 2, threads := [.install 0, .idle] } := .init _ ⟨[false, false], 1, by simp, rfl⟩
  have r1 := Reach.step _ _ r0 (.install _ 0 0 rfl (by simp))
  have r2 := Reach.step _ _ r1 (.addLock _ 0 0 0 _ rfl rfl rfl rfl)
  have r3 := Reach.step _ _ r2 (.addOk _ 0 0 0 _ rfl rfl rfl)
  have r4 := Reach.step _ _ r3 (.addPush _ 0 0 0 _ rfl rfl)
  have r5 := Reach.step _ _ r4 (.unwindEnd _ 0 rfl)
  have r6 := Reach.step _ _ r5 (.win _ 1 0 .cancel _ rfl rfl rfl rfl)
  have r7 := Reach.step _ _ r6 (.writeHr _ 1 0 .cancel _ rfl rfl)
  have r8 := Reach.step _ _ r7 (.swap _ 1 0 _ rfl rfl rfl)
  have r9 := Reach.step _ _ r8 (.invoke _ 1 0 _ rfl rfl)
  have r10 := Reach.step _ _ r9 (.handlerCancel _ 1 0 1 rfl)
  have r11 := Reach.step _ _ r10 (.cas _ 1 0 E_CANCELLED 1 rfl)
  have r12 := Reach.step _ _ r11 (.dec _ 1 0 1 rfl)
  have r13 := Reach.step _ _ r12 (.install _ 1 1 rfl (by simp))
  have r14 := Reach.step _ _ r13 (.addLock _ 1 1 1 _ rfl rfl rfl rfl)
  have r15 := Reach.step _ _ r14 (.addOk _ 1 1 1 _ rfl rfl rfl)
  have r16 := Reach.step _ _ r15 (.addPush _ 1 1 1 _ rfl rfl)
  have r17 := Reach.step _ _ r16 (.unwind _ 1 0 rfl)
  have r18 := Reach.step _ _ r17 (.unwindEnd _ 1 rfl)
  have r19 := Reach.step _ _ r18 (.win _ 0 1 (.resolve 7) _ rfl rfl rfl rfl)
  have r20 := Reach.step _ _ r19 (.writeHr _ 0 1 (.resolve 7) _ rfl rfl)
  have r21 := Reach.step _ _ r20 (.swap _ 0 1 _ rfl rfl rfl)
  have r22 := Reach.step _ _ r21 (.invoke _ 0 1 _ rfl rfl)
  have r23 := Reach.step _ _ r22 (.handlerOk _ 0 1 1 rfl)
  have r24 := Reach.step _ _ r23 (.dec _ 0 1 1 rfl)
  have r25 := Reach.step _ _ r24 (.resolve _ 0 1 rfl)
  have r26 := Reach.step _ _ r25 (.drop _ (by simp) rfl)
  have r27 := Reach.step _ _ r26 (.unwind _ 0 0 rfl)
  have r28 := Reach.step _ _ r27 (.unwindEnd _ 0 rfl)
  exact ⟨_, r28, rfl, rfl, rfl, by simp⟩

#print axioms C51_result_partial
#print axioms C51_result_unraced
#print axioms C51_once
#print axioms C51_completes
#print axioms C51_lifetime
#print axioms C51_exclusive
#print axioms C51_fails
#print axioms C51_case

end Verif.When.All
