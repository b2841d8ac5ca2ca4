import Verif.Sequenced.Lemmas
set_option linter.unusedVariables false
namespace Verif.Sequenced
open Verif.Common

/-- Additional invariant for schedules without a `Pop` during a post. -/
structure Inv2 (s : St) : Prop where
  cnt : s.word.stop = false → s.shared = true →
    s.word.cnt = s.queue.length + sumBy isPushing s.threads + sumBy inHand s.threads ∧ s.word.cnt < cntMod
  wake : s.word.stop = false → s.shared = true → 0 < s.word.cnt → 0 < s.pool + sumBy act s.threads
  cl : ∀ (j : Nat), s.threads[j]? = some .cleanup → s.word.stop = false → s.shared = true → False

theorem inv2_init {s} (h : Init s) : Inv2 s := by
  obtain ⟨n, rfl⟩ := h
  have e := fun f h => sumBy_replicate (α := PC) f .idle h n
  constructor
  · intro _ _; simp [e isPushing rfl, e inHand rfl]; unfold cntMod; omega
  · simp
  · intro j hj; simp [List.getElem?_replicate] at hj

theorem cl_set {s s' : St} (hJ : Inv2 s) {i : Nat} {q : PC} (hs : s'.threads = s.threads.set i q)
    (hst : s'.word.stop = false → s.word.stop = false) (hsh : s'.shared = true → s.shared = true)
    (hcl : q = .cleanup → s'.word.stop = false → s'.shared = true → False) :
    ∀ (j : Nat), s'.threads[j]? = some .cleanup → s'.word.stop = false → s'.shared = true → False := by
  intro j hj h1 h2
  rw [hs] at hj
  rcases get_set hj with ⟨-, h⟩ | ⟨-, h⟩
  · exact hcl h.symm h1 h2
  · exact hJ.cl j h (hst h1) (hsh h2)

/-- moves that change neither word, queue nor what is in hand -/
theorem inv2_move {s s' : St} (hJ : Inv2 s) {i : Nat} {p q : PC} (h : s.threads[i]? = some p) (hs : s'.threads = s.threads.set i q)
    (hw : s'.word.cnt = s.word.cnt) (hst : s'.word.stop = false → s.word.stop = false) (hsh : s'.shared = true → s.shared = true)
    (hq : s'.word.stop = false → s'.shared = true → s'.queue.length + isPushing q + inHand q = s.queue.length + isPushing p + inHand p)
    (ha : s'.word.stop = false → s'.shared = true → s.pool + act p ≤ s'.pool + act q)
    (hcl : q = .cleanup → s'.word.stop = false → s'.shared = true → False := by (intro h; cases h)) : Inv2 s' := by
  obtain ⟨u1, u2, u3, u4, u5, l1, l2, l3⟩ := sums_of h q
  rw [← hs] at u1 u2 u3 u4 u5
  constructor
  · intro h1 h2
    obtain ⟨c1, c2⟩ := hJ.cnt (hst h1) (hsh h2)
    have := hq h1 h2
    rw [hw]
    omega
  · intro h1 h2 h3
    have := hJ.wake (hst h1) (hsh h2) (by omega)
    have := ha h1 h2
    omega
  · exact cl_set hJ hs hst hsh hcl

theorem pushing_le_prod (l : List PC) : sumBy isPushing l ≤ sumBy isProd l := by
  induction l with
  | nil => simp
  | cons a l ih =>
    have : isPushing a ≤ isProd a := by cases a <;> simp [isPushing, isProd]
    simp; omega

theorem inHand_le_act (l : List PC) : sumBy inHand l ≤ sumBy act l := by
  induction l with
  | nil => simp
  | cons a l ih =>
    have : inHand a ≤ act a := by cases a <;> simp [inHand, act]
    simp; omega

theorem dec_mod {a : Nat} (h : a < cntMod) (h0 : 0 < a) : (a + cntMod - 1) % cntMod = a - 1 := by
  have : a + cntMod - 1 = (a - 1) + cntMod := by omega
  rw [this, Nat.add_mod_right]; exact Nat.mod_eq_of_lt (by omega)

theorem inv2_sub {s : St} (hI : Inv s) (hJ : Inv2 s) {i : Nat} (h : s.threads[i]? = some .exSub) (c : Nat)
    (hc : s.word.cnt < cntMod → 0 < s.word.cnt → c = s.word.cnt - 1) :
    Inv2 { s with word := { s.word with cnt := c },
                  threads := s.threads.set i (if s.word.intr || decide (c = 0) then .exExit else .exCheck) } := by
  have l1 := le_sumBy inHand _ _ _ h
  have l2 := le_sumBy act _ _ _ h
  simp only [inHand, act] at l1 l2
  cases hb : (s.word.intr || decide (c = 0))
  · simp only [Bool.false_eq_true, if_false]
    obtain ⟨u1, u2, u3, u4, u5, -⟩ := sums_of h .exCheck
    simp only [act, isPushing, inHand] at u1 u4 u5
    constructor
    · intro h1 h2
      obtain ⟨c1, c2⟩ := hJ.cnt h1 h2
      have := hc c2 (by omega)
      simp only []
      omega
    · intro h1 h2 h3; simp only []; omega
    · exact cl_set hJ rfl id id (by intro h; cases h)
  · simp only [if_true]
    obtain ⟨u1, u2, u3, u4, u5, -⟩ := sums_of h .exExit
    simp only [act, isPushing, inHand] at u1 u4 u5
    constructor
    · intro h1 h2
      obtain ⟨c1, c2⟩ := hJ.cnt h1 h2
      have := hc c2 (by omega)
      simp only []
      omega
    · intro h1 h2 h3
      simp at hb
      rcases hb with hb | hb
      · have := hI.intr hb; simp only [] at h1; rw [h1] at this; cases this
      · simp only [] at h3; omega
    · exact cl_set hJ rfl id id (by intro h; cases h)

theorem inv2_step {s s'} (hI : Inv s) (hJ : Inv2 s) (hs : Step true s s') : Inv2 s' := by
  have ⟨a1, a2, prod, prodLock, intr, task, noTask, fifo, sub, eq⟩ := hI
  cases hs with
  | post i t h => exact inv2_move hJ h rfl rfl id id (fun _ _ => rfl) (fun _ _ => Nat.le_refl _)
  | refuse i t f h hf => exact inv2_move hJ h rfl rfl id id (fun _ _ => rfl) (fun _ _ => Nat.le_refl _)
  | reload i t f h hf hl => exact inv2_move hJ h rfl rfl id id (fun _ _ => rfl) (fun _ _ => Nat.le_refl _)
  | casFail i t f h hf hl hw => exact inv2_move hJ h rfl rfl id id (fun _ _ => rfl) (fun _ _ => Nat.le_refl _)
  | casOk i t f h hf hl hw hb =>
    subst hw
    obtain ⟨u1, u2, u3, u4, u5, l1, l2, l3⟩ := sums_of h (.pushing t (decide (s.word.cnt = 0)))
    simp only [act, isPushing, inHand] at u1 u4 u5
    constructor
    · intro h1 h2
      obtain ⟨c1, c2⟩ := hJ.cnt h1 h2
      simp only []
      exact ⟨by omega, hb⟩
    · intro h1 h2 h3
      simp only []
      by_cases h0 : s.word.cnt = 0
      · simp [h0] at u1; rw [decide_eq_true h0]; omega
      · have := hJ.wake h1 h2 (by omega); omega
    · exact cl_set hJ rfl id id (by intro h; cases h)
  | push i t b h =>
    refine inv2_move hJ h rfl rfl id id (fun _ _ => ?_) (fun _ _ => Nat.le_refl _)
    simp [isPushing, inHand]
  | unlock i b h =>
    refine inv2_move (q := if b then .schedule else .idle) hJ h rfl rfl id id (fun _ _ => ?_) (fun _ _ => ?_) ?_
    · cases b <;> rfl
    · cases b <;> simp [act]
    · intro h; cases b <;> cases h
  | schedule i h => exact inv2_move hJ h rfl rfl id id (fun _ _ => rfl) (fun _ _ => by simp [act])
  | scheduleFail i h => exact ⟨fun h1 => (by cases h1), fun h1 => (by cases h1), fun _ _ h1 => (by cases h1)⟩
  | join => exact ⟨fun h1 => (by cases h1), fun h1 => (by cases h1), fun _ _ h1 => (by cases h1)⟩
  | interrupt => exact ⟨fun h1 => (by cases h1), fun h1 => (by cases h1), fun _ _ h1 => (by cases h1)⟩
  | unshare => exact ⟨fun _ h1 => (by cases h1), fun _ h1 => (by cases h1), fun _ _ _ h1 => (by cases h1)⟩
  | exStart i h hp => exact inv2_move hJ h rfl rfl id id (fun _ _ => rfl) (fun _ _ => by simp [act]; omega)
  | exCheck i h => exact inv2_move hJ h rfl rfl id id (fun _ _ => rfl) (fun _ _ => Nat.le_refl _)
  | exUnshared i h hs =>
    exact inv2_move hJ h rfl rfl id id (fun _ _ => rfl) (fun _ h => by simp only [] at h; rw [h] at hs; cases hs)
  | exPop i t q h hq hc =>
    refine inv2_move hJ h rfl rfl id id (fun _ _ => ?_) (fun _ _ => Nat.le_refl _)
    simp [isPushing, inHand, hq]
  | exPopNone i h hq hc =>
    have hl := hc rfl
    refine inv2_move hJ h rfl rfl id id (fun _ _ => rfl) (fun h1 h2 => ?_)
    exfalso
    have l1 := le_sumBy act _ _ _ h
    simp only [act] at l1
    obtain ⟨c1, c2⟩ := hJ.cnt h1 h2
    have hp : sumBy isProd s.threads = 0 := by
      refine Classical.byContradiction fun hn => ?_
      rcases prodLock (by omega) with hh | hh
      · rw [hl] at hh; cases hh
      · simp only [] at h1; rw [h1] at hh; cases hh
    have := pushing_le_prod s.threads
    have hh : sumBy inHand s.threads = 0 := by
      refine Classical.byContradiction fun hn => ?_
      obtain ⟨x, hx, h0⟩ := sumBy_pos inHand s.threads (by omega)
      obtain ⟨j, hj⟩ := List.getElem?_of_mem hx
      have hij : i ≠ j := by rintro rfl; rw [h] at hj; cases hj; simp [inHand] at h0
      have h1 := add_le_sumBy act s.threads i j _ _ hij h hj
      have h2 : inHand x ≤ act x := by cases x <;> simp [inHand, act]
      rw [show act .exPop = 1 from rfl] at h1
      omega
    rcases a2 (by omega) with h0 | h0
    · rw [hq] at c1; simp at c1; omega
    · simp only [] at h1; rw [h1] at h0; cases h0
  | exStartTask i t h => exact inv2_move hJ h rfl rfl id id (fun _ _ => rfl) (fun _ _ => Nat.le_refl _)
  | exEndTask i t h => exact inv2_move hJ h rfl rfl id id (fun _ _ => rfl) (fun _ _ => Nat.le_refl _)
  | exSub i h => exact inv2_sub hI hJ h _ (fun h1 h2 => dec_mod h1 h2)
  | exLeave i h => exact inv2_move hJ h rfl rfl id id (fun _ _ => rfl) (fun _ _ => Nat.le_refl _)
  | exCleanup i h hc =>
    refine inv2_move hJ h rfl rfl id id (fun _ _ => rfl) (fun _ _ => Nat.le_refl _) (fun _ h1 h2 => ?_)
    simp only [] at h1 h2
    rcases hc with hc | hc | ⟨hc, -⟩
    · rw [h2] at hc; cases hc
    · have := intr hc; rw [h1] at this; cases this
    · rw [h1] at hc; cases hc
  | cleanPop i t q h hq =>
    exact ⟨fun h1 h2 => (hJ.cl i h h1 h2).elim, fun h1 h2 => (hJ.cl i h h1 h2).elim, fun j hj h1 h2 => hJ.cl j hj h1 h2⟩
  | cleanEnd i h hq => exact ⟨fun h1 => (by cases h1), fun h1 => (by cases h1), fun _ _ h1 => (by cases h1)⟩

theorem inv2_reach {s} (h : Reach true s) : Inv2 s := by
  induction h with
  | init s h => exact inv2_init h
  | step s s' hr hs ih => exact inv2_step (inv_reach hr) ih hs

end Verif.Sequenced
