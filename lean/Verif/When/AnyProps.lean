import Verif.When.AnyStep

namespace Verif.When.Any
open Verif.Common

/-- the task is completed (a null task counts as completed) -/
def Completed (o : Op) : Prop := o.null = true ∨ o.done = true

/-- **C52**: the result is the index of a completed task -/
theorem C52_index (s : St) (h : Reach s) (j : Nat) (hj : s.own = some (some j)) : ∃ o, s.ops[j]? = some o ∧ Completed o :=
  (inv_reach h).res j ((inv_reach h).own j hj)

/-- **C52**: the result never changes -/
theorem C52_once (s s' : St) (hs : Step s s') (r : Option Nat) (h : s.own = some r) : s'.own = some r := by
  cases hs <;> simp_all

/-- **C52**: a task stays completed, the tasks stay the same -/
theorem C52_stays (s s' : St) (hs : Step s s') (j : Nat) (o : Op) (ho : s.ops[j]? = some o) (hc : Completed o) : ∃ o', s'.ops[j]? = some o' ∧ Completed o' := by
  unfold Completed at *
  cases hs <;> grind

theorem quiet_creating {s : St} (hI : Inv s) (hq : ∀ p ∈ s.threads, p = .idle) : s.creating = false := by
  have h1 : sumBy ctok s.threads = 0 := (sumBy_eq_zero _ _).2 fun p hp => by rw [hq p hp]; rfl
  have := hI.one
  cases e : s.creating with
  | false => rfl
  | true => rw [h1, e] at this; cases this

theorem quiet_listed {s : St} (hI : Inv s) (hq : ∀ p ∈ s.threads, p = .idle) {j : Nat} {o : Op} (ho : s.ops[j]? = some o) (hl : o.listed = true) : o.done = false := by
  cases hd : o.done with
  | false => rfl
  | true =>
    obtain ⟨i, hi⟩ := hI.wake j o ho hd (.inl hl)
    have := hq _ (List.mem_of_getElem? hi); cases this

/-- a handler is never given to a null task -/
theorem listed_null {s : St} (h : Reach s) : ∀ (j : Nat) (o : Op), s.ops[j]? = some o → o.listed = true → o.null = false := by
  induction h with
  | init s h =>
    obtain ⟨ns, n, _, rfl⟩ := h
    intro j o ho hl
    obtain ⟨b, _, rfl⟩ := List.mem_map.1 (List.mem_of_getElem? ho); cases hl
  | step s s' hr hs ih =>
    have hI := inv_reach hr
    cases hs with
    | addPush i k o h ho =>
      obtain ⟨_, _, _, o1, t4, t5, _⟩ := hI.T i _ h
      rw [ho] at t4; cases t4
      intro j o' ho' hl
      rcases get_set ho' with ⟨rfl, rfl⟩ | ⟨_, h'⟩
      · exact t5
      · exact ih j o' h' hl
    | _ => grind

/-- **C52**: when no thread is busy, a completed task means that the operation is completed -/
theorem C52_completes (s : St) (h : Reach s) (hq : ∀ p ∈ s.threads, p = .idle) (hd : ∃ o ∈ s.ops, Completed o) : s.own ≠ none := by
  have hI := inv_reach h
  obtain ⟨o, ho, hc⟩ := hd
  obtain ⟨j, hj⟩ := List.getElem?_of_mem ho
  refine hI.own' fun e => ?_
  have hp := hI.fin (quiet_creating hI hq) e
  have hlt : j < s.prog := by rw [hp]; exact (List.getElem?_eq_some_iff.1 hj).1
  rcases hI.prog e j hlt with ⟨o', ho', hl⟩ | ⟨i, hi⟩
  · rw [hj] at ho'; cases ho'
    rcases hc with hc | hc
    · rw [listed_null h j o hj hl] at hc; cases hc
    · rw [quiet_listed hI hq hj hl] at hc; cases hc
  · rcases hi with hi | hi <;> · have := hq _ (List.mem_of_getElem? hi); cases this

/-- the thread is about to touch the operation or a handler inside it -/
def Touches (p : PC) : Prop := p ≠ .idle ∧ ∀ j, p ≠ .swap j

/-- **C52, bookkeeping**: the operation is destroyed at most once, never while a thread is about to touch it or one of its handlers, nor while a task has one of its
handlers in its list or a user has a reference; and no handler is called without its reference. -/
theorem C52_safe (s : St) (h : Reach s) :
    s.ub = false ∧ s.freed ≤ 1 ∧ (∀ p ∈ s.threads, Touches p → s.freed = 0) ∧ (∀ o ∈ s.ops, o.listed = true → s.freed = 0) ∧ (s.user ≠ 0 → s.freed = 0) := by
  have hI := inv_reach h
  have hf := hI.freed
  have hr := hI.ref
  have hld : ∀ (j : Nat) (o : Op), s.ops[j]? = some o → (o.listed = true ∨ sumBy (claim j) s.threads ≠ 0) → s.freed = 0 := by
    intro j o hj hx
    have h1 := hI.cl j o hj
    have h2 := le_sumBy hold _ _ _ hj
    have h3 : b2n o.hold ≠ 0 := by
      rcases hx with hx | hx
      · rw [hx] at h1; simp only [b2n, if_true] at h1 ⊢; omega
      · omega
    have h4 : hold o ≠ 0 := h3
    rw [hf, if_neg (by omega)]
  refine ⟨hI.ub, by rw [hf]; split <;> omega, fun p hp ht => ?_, fun o ho hl => ?_, fun hu => by rw [hf, if_neg (by omega)]⟩
  · obtain ⟨i, hi⟩ := List.getElem?_of_mem hp
    by_cases hc : ctok p = 1
    · have h1 := (ctok_le hI hi hc).1
      have := hI.user h1
      rw [hf, if_neg (by omega)]
    · cases p with
      | idle => exact absurd rfl ht.1
      | swap j => exact absurd rfl (ht.2 j)
      | invoke j =>
        obtain ⟨_, o, ho, _⟩ := hI.T i _ hi
        have h1 := le_sumBy (claim j) _ _ _ hi
        simp only [claim, if_true] at h1
        exact hld j o ho (.inr (by omega))
      | called j =>
        have := le_sumBy held _ _ _ hi
        simp only [held] at this
        rw [hf, if_neg (by omega)]
      | release =>
        have := le_sumBy held _ _ _ hi
        simp only [held] at this
        rw [hf, if_neg (by omega)]
      | _ => exact absurd rfl hc
  · obtain ⟨j, hj⟩ := List.getElem?_of_mem ho
    exact hld j o hj (.inl hl)

/-- **C52, bookkeeping (partial)**: when no task refused the handler, all tasks are completed, no thread is busy and the user has dropped the operation, it is destroyed.
Missing: a refused handler, see `C52_leak`. -/
theorem C52_release_partial (s : St) (h : Reach s) (hq : ∀ p ∈ s.threads, p = .idle) (hd : ∀ o ∈ s.ops, Completed o) (hu : s.user = 0) (hn : s.refused = none) :
    s.freed = 1 := by
  have hI := inv_reach h
  have h1 : sumBy held s.threads = 0 := (sumBy_eq_zero _ _).2 fun p hp => by rw [hq p hp]; rfl
  have h2 : sumBy hold s.ops = 0 := (sumBy_eq_zero _ _).2 fun o ho => by
    obtain ⟨j, hj⟩ := List.getElem?_of_mem ho
    have hc : sumBy (claim j) s.threads = 0 := (sumBy_eq_zero _ _).2 fun p hp => by rw [hq p hp]; rfl
    have hl : o.listed = false := by
      cases hl : o.listed with
      | false => rfl
      | true =>
        rcases hd o ho with e | e
        · rw [listed_null h j o hj hl] at e; cases e
        · rw [quiet_listed hI hq hj hl] at e; cases e
    have := hI.cl j o hj
    rw [hc, hl, hn] at this
    exact this
  have := hI.ref
  rw [hI.freed, if_pos (by omega)]

/-- **C52 fails**: once a task has refused the handler, the operation is never destroyed -/
theorem C52_leak (s : St) (h : Reach s) (k : Nat) (hk : s.refused = some k) (hlt : k < s.ops.length) : s.freed = 0 ∧ 1 ≤ s.ref - s.user := by
  have hI := inv_reach h
  obtain ⟨o, ho⟩ : ∃ o, s.ops[k]? = some o := ⟨_, List.getElem?_eq_getElem hlt⟩
  have h1 := hI.cl k o ho
  rw [hk] at h1
  simp only [beq_self_eq_true] at h1
  have h2 := le_sumBy hold _ _ _ ho
  have h3 : hold o = b2n o.hold := rfl
  have h4 : b2n true = 1 := rfl
  have := hI.ref
  rw [hI.freed, if_neg (by omega)]
  exact ⟨rfl, by omega⟩

/-- a refused index stays refused, so the leak is permanent -/
theorem C52_leak_forever (s s' : St) (h : Reach s) (hs : Step s s') (k : Nat) (hk : s.refused = some k) (hlt : k < s.ops.length) :
    s'.refused = some k ∧ k < s'.ops.length := by
  have hI := inv_reach h
  cases hs with
  | addRefuse i k' o h' ho hd =>
    obtain ⟨_, _, t3, _⟩ := hI.T i _ h'
    rw [hk] at t3; cases t3
  | _ => simp_all

/-- the witness: the second task was completed before `WhenAny` is called.  The operation gets the right index, and everybody drops it, but it is never destroyed. -/
theorem C52_release_fails : ∃ s, Reach s ∧ s.ops.map Op.done = [true, true] ∧ (∀ p ∈ s.threads, p = .idle) ∧ s.user = 0 ∧ s.own = some (some 1) ∧
    s.refused = some 1 ∧ s.freed = 0 := by
  have r0 : Reach { ops := [{ null := false }, { null := false }], threads := [.loop 0, .idle] } := .init _ ⟨[false, false], 1, by simp, rfl⟩
  have r1 := Reach.step _ _ r0 (.win _ 1 1 _ rfl rfl rfl rfl)
  have r2 := Reach.step _ _ r1 (.swap _ 1 1 _ rfl rfl rfl)
  have r3 := Reach.step _ _ r2 (.loopSet _ 0 0 _ rfl rfl rfl)
  have r4 := Reach.step _ _ r3 (.addLock _ 0 0 _ rfl rfl rfl)
  have r5 := Reach.step _ _ r4 (.addOk _ 0 0 _ rfl rfl rfl)
  have r6 := Reach.step _ _ r5 (.addPush _ 0 0 _ rfl rfl)
  have r7 := Reach.step _ _ r6 (.loopSet _ 0 1 _ rfl rfl rfl)
  have r8 := Reach.step _ _ r7 (.addLock _ 0 1 _ rfl rfl rfl)
  have r9 := Reach.step _ _ r8 (.addRefuse _ 0 1 _ rfl rfl rfl)
  have r10 := Reach.step _ _ r9 (.res _ 0 1 rfl)
  have r11 := Reach.step _ _ r10 (.rollRemove _ 0 0 _ rfl rfl rfl rfl rfl)
  have r12 := Reach.step _ _ r11 (.reset _ 0 0 _ rfl rfl rfl)
  have r13 := Reach.step _ _ r12 (.rollEnd _ 0 rfl)
  have r14 := Reach.step _ _ r13 (.fin _ 0 rfl)
  have r15 := Reach.step _ _ r14 (.drop _ (by simp) rfl)
  have r16 := Reach.step _ _ r15 (.win _ 1 0 _ rfl rfl rfl rfl)
  have r17 := Reach.step _ _ r16 (.swap _ 1 0 _ rfl rfl rfl)
  exact ⟨_, r17, rfl, by simp, rfl, rfl, rfl, rfl⟩

/-- an ordinary history: the second of two tasks is completed first, then the first; the user drops the operation, which is then destroyed -/
theorem C52_case : ∃ s, Reach s ∧ s.ops.map Op.done = [true, true] ∧ (∀ p ∈ s.threads, p = .idle) ∧ s.user = 0 ∧ s.own = some (some 1) ∧
    s.refused = none ∧ s.freed = 1 := by
  have r0 : Reach { ops := [{ null := false }, { null := false }], threads := [.loop 0, .idle] } := .init _ ⟨[false, false], 1, by simp, rfl⟩
  have r3 := Reach.step _ _ r0 (.loopSet _ 0 0 _ rfl rfl rfl)
  have r4 := Reach.step _ _ r3 (.addLock _ 0 0 _ rfl rfl rfl)
  have r5 := Reach.step _ _ r4 (.addOk _ 0 0 _ rfl rfl rfl)
  have r6 := Reach.step _ _ r5 (.addPush _ 0 0 _ rfl rfl)
  have r7 := Reach.step _ _ r6 (.loopSet _ 0 1 _ rfl rfl rfl)
  have r8 := Reach.step _ _ r7 (.addLock _ 0 1 _ rfl rfl rfl)
  have r9 := Reach.step _ _ r8 (.addOk _ 0 1 _ rfl rfl rfl)
  have r10 := Reach.step _ _ r9 (.win _ 1 1 _ rfl rfl rfl rfl)
  have r11 := Reach.step _ _ r10 (.addPush _ 0 1 _ rfl rfl)
  have r12 := Reach.step _ _ r11 (.loopEnd _ 0 2 rfl rfl)
  have r13 := Reach.step _ _ r12 (.swap _ 1 1 _ rfl rfl rfl)
  have r14 := Reach.step _ _ r13 (.fin _ 0 rfl)
  have r15 := Reach.step _ _ r14 (.win _ 0 0 _ rfl rfl rfl rfl)
  have r16 := Reach.step _ _ r15 (.invoke _ 1 1 _ rfl rfl)
  have r17 := Reach.step _ _ r16 (.called _ 1 1 rfl)
  have r18 := Reach.step _ _ r17 (.swap _ 0 0 _ rfl rfl rfl)
  have r19 := Reach.step _ _ r18 (.invoke _ 0 0 _ rfl rfl)
  have r20 := Reach.step _ _ r19 (.called _ 0 0 rfl)
  have r21 := Reach.step _ _ r20 (.release _ 1 rfl)
  have r22 := Reach.step _ _ r21 (.drop _ (by simp) rfl)
  have r23 := Reach.step _ _ r22 (.release _ 0 rfl)
  exact ⟨_, r23, rfl, by simp, rfl, rfl, rfl, rfl⟩

#print axioms C52_index
#print axioms C52_once
#print axioms C52_completes
#print axioms C52_safe
#print axioms C52_release_partial
#print axioms C52_leak
#print axioms C52_leak_forever
#print axioms C52_release_fails
#print axioms C52_case

end Verif.When.Any
