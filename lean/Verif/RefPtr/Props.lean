import Verif.RefPtr.Lemmas
/-! # C28: lifetime of reference counted objects under any interleaving of any number of threads -/
namespace Verif.RefPtr
open Verif.Common

/-- C28. In every state reachable by any schedule of any number of threads copying, dropping, moving, weakening and upgrading references:
* nothing undefined has happened (no access after the memory was freed, no use of a destroyed object, no double destructor or double free);
* while any strong reference exists the object is neither destroyed nor freed (in particular after a successful upgrade);
* while any weak reference exists the memory is not freed;
* the destructor ran at most once, the memory was freed at most once and only after the destructor;
* once all calls have returned: no strong reference left ⇒ destructor ran exactly once; no reference at all left ⇒ freed exactly once;
* an upgrade returns failure only when no strong reference exists. -/
theorem C28_lifetime (s : St) (h : Reach s) :
    s.ub = false ∧
    ((∃ t ∈ s.threads, 0 < t.strong) → s.destroyed = 0 ∧ s.freed = 0) ∧
    ((∃ t ∈ s.threads, 0 < t.weak) → s.freed = 0) ∧
    s.destroyed ≤ 1 ∧ s.freed ≤ s.destroyed ∧
    ((∀ t ∈ s.threads, t.pc = .idle) → (∀ t ∈ s.threads, t.strong = 0) → s.destroyed = 1) ∧
    ((∀ t ∈ s.threads, t.pc = .idle) → (∀ t ∈ s.threads, t.strong = 0 ∧ t.weak = 0) → s.freed = 1) ∧
    (∀ t ∈ s.threads, t.pc = .trying 0 → ∀ u ∈ s.threads, u.strong = 0) := by
  have hI := inv_reach h
  have ⟨sref, bnd, wbnd, ok, dead, live, rel, sweak, memDead, memLive, pin⟩ := hI
  refine ⟨ok, ?_, ?_, by omega, by omega, ?_, ?_, ?_⟩
  · rintro ⟨t, ht, h0⟩
    have := le_sumBy_of_mem Th.strong _ _ ht
    exact hI.alive (by omega)
  · rintro ⟨t, ht, h0⟩
    have := le_sumBy_of_mem Th.weak _ _ ht
    exact (hI.mem_alive (by omega)).1
  · intro hi h0
    have e := (sumBy_eq_zero Th.strong s.threads).2 h0
    have d := (sumBy_eq_zero isDtor s.threads).2 (fun t ht => by simp [isDtor, hi t ht])
    omega
  · intro hi h0
    have e := (sumBy_eq_zero Th.strong s.threads).2 (fun t ht => (h0 t ht).1)
    have w := (sumBy_eq_zero Th.weak s.threads).2 (fun t ht => (h0 t ht).2)
    have d := (sumBy_eq_zero isDtor s.threads).2 (fun t ht => by simp [isDtor, hi t ht])
    have r := (sumBy_eq_zero isRel s.threads).2 (fun t ht => by simp [isRel, hi t ht])
    have f := (sumBy_eq_zero isFree s.threads).2 (fun t ht => by simp [isFree, hi t ht])
    omega
  · intro t ht hp
    have := (pin t ht 0 hp).2 rfl
    exact (sumBy_eq_zero Th.strong _).1 (by omega)

/-- Non-vacuity: the first thread makes a weak reference, hands it to the second, drops the last strong reference; the second thread's upgrade,
started before the drop, retries and fails; it then drops the weak reference and frees the memory. -/
example : ∃ s, Reach s ∧ s.destroyed = 1 ∧ s.freed = 1 := by
  have hw : wrap = 4294967296 := by unfold wrap; rfl
  let t1 : List Th := [{ strong := 1 }, {}]
  have r0 : Reach { threads := t1 } := .init _ ⟨1, rfl⟩
  have r1 := Reach.step _ _ r0 (.addWeakRef _ 0 { strong := 1 } rfl rfl (by decide) (by simp [St.weaks, t1, hw]))
  have r2 := Reach.step _ _ r1 (.giveWeak _ 0 1 { strong := 1, weak := 1 } {} (by decide) rfl rfl (by decide) rfl)
  have r3 := Reach.step _ _ r2 (.tryRead _ 1 { weak := 1 } rfl rfl (by decide))
  have r4 := Reach.step _ _ r3 (.release _ 0 { strong := 1 } rfl rfl (by decide))
  simp [St.touch, t1, hw] at r4
  have r5 := Reach.step _ _ r4 (.dtor _ 0 { pc := .dtor } rfl rfl)
  have r6 := Reach.step _ _ r5 (.tryCas _ 1 { weak := 1, pc := .trying 1 } 1 rfl rfl (by decide) (by simp [St.strongs, hw]))
  simp [St.touch] at r6
  have r7 := Reach.step _ _ r6 (.tryFail _ 1 { weak := 1, pc := .trying 0 } rfl rfl)
  have r8 := Reach.step _ _ r7 (.relWeak _ 0 { pc := .relWeak } rfl rfl)
  simp [St.touch, hw] at r8
  have r9 := Reach.step _ _ r8 (.releaseWeak _ 1 { weak := 1 } rfl rfl (by decide))
  simp [St.touch, hw] at r9
  have r10 := Reach.step _ _ r9 (.free _ 1 { pc := .free } rfl rfl)
  exact ⟨_, r10, rfl, rfl⟩

#print axioms C28_lifetime
end Verif.RefPtr
