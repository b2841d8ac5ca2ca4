import Verif.WaitAddr.Model
/-!
# C35 – waiting for an address to hold a value is sound
-/
namespace Verif.WaitAddr
open Verif.Time

theorem le_inj : ∀ {a b : List (BitVec 8)}, a.length = b.length → le a = le b → a = b := by
  intro a
  induction a with
  | nil => intro b hl _; cases b with
    | nil => rfl
    | cons _ _ => simp at hl
  | cons x a ih =>
    intro b hl h
    cases b with
    | nil => simp at hl
    | cons y b =>
      simp only [le] at h
      have hx := x.isLt
      have hy := y.isLt
      have h1 : x.toNat = y.toNat := by omega
      have h2 : le a = le b := by omega
      rw [ih (by simpa using hl) h2, BitVec.eq_of_toNat_eq h1]

theorem inf_true (env : Env) (n target fuel i : Nat) (es : List Ev) (h : waitInf env n target fuel i = (es, some true)) :
    ∃ k, i ≤ k ∧ le ((env.mem k).take n) = target ∧ .load ((env.mem k).take n) ∈ es := by
  induction fuel generalizing i es with
  | zero => simp [waitInf] at h
  | succ fuel ih =>
    simp only [waitInf] at h
    split at h
    · rename_i hh; exact ⟨i, Nat.le_refl _, hh, by rw [← (Prod.mk.inj h).1]; simp⟩
    · obtain ⟨k, hk, e, m⟩ := ih (i + 1) _ (Prod.ext rfl (Prod.mk.inj h).2)
      exact ⟨k, by omega, e, by rw [← (Prod.mk.inj h).1]; simp [m]⟩

theorem timed_true (env : Env) (n target expire fuel i : Nat) (es : List Ev) (h : waitTimed env n target expire fuel i = (es, some true)) :
    ∃ k, i ≤ k ∧ le ((env.mem k).take n) = target ∧ .load ((env.mem k).take n) ∈ es := by
  induction fuel generalizing i es with
  | zero => simp [waitTimed] at h
  | succ fuel ih =>
    simp only [waitTimed] at h
    split at h
    · rename_i hh; exact ⟨i, Nat.le_refl _, hh, by rw [← (Prod.mk.inj h).1]; simp⟩
    · split at h
      · simp at h
      · split at h
        · obtain ⟨k, hk, e, m⟩ := ih (i + 1) _ (Prod.ext rfl (Prod.mk.inj h).2)
          exact ⟨k, by omega, e, by rw [← (Prod.mk.inj h).1]; simp [m]⟩
        · simp at h

/-- **C35 (soundness).** Whatever the other threads and the clock do: if the call reports success, then at some load of the call all `size` bytes at the address
equalled the compared bytes. -/
theorem C35_true_sound (env : Env) (cmp : List (BitVec 8)) (size : Nat) (span : Int) (fuel : Nat) (es : List Ev)
    (hm : ∀ i, size ≤ (env.mem i).length) (hc : size ≤ cmp.length) (h : waitEqual env cmp size span fuel = (es, some true)) :
    ∃ i, (env.mem i).take size = cmp.take size ∧ .load (cmp.take size) ∈ es := by
  have key : ∃ i, le ((env.mem i).take size) = le (cmp.take size) ∧ .load ((env.mem i).take size) ∈ es := by
    unfold waitEqual at h
    split at h
    · unfold waitT at h
      split at h
      · simp only [Prod.mk.injEq, Option.some.injEq, decide_eq_true_eq] at h
        exact ⟨0, h.2, by rw [← h.1]; simp⟩
      · split at h
        · obtain ⟨k, _, e⟩ := inf_true _ _ _ _ _ _ h; exact ⟨k, e⟩
        · split at h
          · simp at h
          · obtain ⟨k, _, e⟩ := timed_true _ _ _ _ _ _ _ h; exact ⟨k, e⟩
    · simp at h
  obtain ⟨i, hi, hl⟩ := key
  have e : (env.mem i).take size = cmp.take size := by
    refine le_inj ?_ hi
    rw [List.length_take, List.length_take, Nat.min_eq_left (hm i), Nat.min_eq_left hc]
  exact ⟨i, e, e ▸ hl⟩

/-- **C35 (non-positive timeout).** With a timeout below one millisecond the call loads once, never blocks, and reports exactly whether the value was there. -/
theorem C35_poll (env : Env) (cmp : List (BitVec 8)) (size : Nat) (span : Int) (fuel : Nat) (hs : size = 1 ∨ size = 2 ∨ size = 4 ∨ size = 8)
    (hm : size ≤ (env.mem 0).length) (hc : size ≤ cmp.length) (ht : span < 10000) :
    waitEqual env cmp size span fuel = ([.load ((env.mem 0).take size)], some (decide ((env.mem 0).take size = cmp.take size))) := by
  have hsp : spanTotal .ms span ≤ 0 := by
    have : spanTotal .ms span = span.tdiv 10000 := by simp [spanTotal, Unit.factors]
    rw [this]
    by_cases h0 : 0 ≤ span
    · rw [Int.tdiv_eq_ediv_of_nonneg h0]; omega
    · have h2 : span.tdiv 10000 = -((-span).tdiv 10000) := by rw [Int.neg_tdiv]; omega
      have h3 : 0 ≤ (-span).tdiv 10000 := Int.tdiv_nonneg (by omega) (by omega)
      omega
  rw [waitEqual, if_pos hs, waitT, if_pos hsp]
  have hl : ((env.mem 0).take size).length = (cmp.take size).length := by
    rw [List.length_take, List.length_take, Nat.min_eq_left hm, Nat.min_eq_left hc]
  have : (le ((env.mem 0).take size) = le (cmp.take size)) ↔ ((env.mem 0).take size = cmp.take size) := ⟨le_inj hl, fun e => by rw [e]⟩
  simp only [decide_eq_decide.2 this]

/-- **C35 (no missed value, no time limit).** Waiting without limit, the call returns at the first load that sees the value and not before. -/
theorem C35_inf_first (env : Env) (n target : Nat) (k i fuel : Nat) (hk : le ((env.mem (i + k)).take n) = target)
    (hfirst : ∀ j, j < k → le ((env.mem (i + j)).take n) ≠ target) (hf : k < fuel) :
    (waitInf env n target fuel i).2 = some true ∧ ∀ f, f ≤ k → (waitInf env n target f i).2 = none := by
  induction k generalizing i fuel with
  | zero =>
    refine ⟨?_, ?_⟩
    · cases fuel with
      | zero => omega
      | succ fuel => simp only [waitInf]; rw [Nat.add_zero] at hk; rw [if_pos hk]
    · intro f hf'
      have : f = 0 := by omega
      subst this; rfl
  | succ k ih =>
    have h0 : le ((env.mem i).take n) ≠ target := hfirst 0 (by omega)
    have hk' : le ((env.mem (i + 1 + k)).take n) = target := by rw [show i + 1 + k = i + (k + 1) by omega]; exact hk
    have hfirst' : ∀ j, j < k → le ((env.mem (i + 1 + j)).take n) ≠ target := fun j hj => by
      rw [show i + 1 + j = i + (j + 1) by omega]; exact hfirst (j + 1) (by omega)
    refine ⟨?_, ?_⟩
    · cases fuel with
      | zero => omega
      | succ fuel =>
        simp only [waitInf]; rw [if_neg h0]
        exact (ih (i + 1) fuel hk' hfirst' (by omega)).1
    · intro f hf'
      cases f with
      | zero => rfl
      | succ f =>
        simp only [waitInf]; rw [if_neg h0]
        exact (ih (i + 1) (k + 1) hk' hfirst' (by omega)).2 f (by omega)

/-- **C35 (failure).** A timed wait reports failure only after a load that differed, and either the deadline had passed on the clock or the system reported a
timeout of its wait. -/
theorem C35_false_reason (env : Env) (n target expire fuel i : Nat) (h : (waitTimed env n target expire fuel i).2 = some false) :
    ∃ k, i ≤ k ∧ le ((env.mem k).take n) ≠ target ∧ (env.now k > expire ∨ env.woken k = false) := by
  induction fuel generalizing i with
  | zero => simp [waitTimed] at h
  | succ fuel ih =>
    simp only [waitTimed] at h
    split at h
    · simp at h
    · rename_i hne
      split at h
      · rename_i he; exact ⟨i, Nat.le_refl _, hne, .inl he⟩
      · split at h
        · obtain ⟨k, h1, h2, h3⟩ := ih (i + 1) h
          exact ⟨k, by omega, h2, h3⟩
        · rename_i hw; exact ⟨i, Nat.le_refl _, hne, .inr (by simpa using hw)⟩

/-- the converse does not hold: when the system's wait times out, the value is not looked at again -/
theorem C35_complete_fails : ∃ env : Env, (waitEqual env [7] 1 20000 5).2 = some false ∧ ∀ i, 0 < i → env.mem i = [7] :=
  ⟨⟨fun i => if i = 0 then [3] else [7], 0, fun _ => 100, fun _ => false, 10000000⟩, by decide +kernel, by intro i hi; simp; omega⟩

/-- A remaining time of 49.7 days or more is passed as "no limit" to the system. -/
theorem C35_long_is_infinite : ∃ env : Env, Ev.wait 0xFFFFFFFF ∈ (waitEqual env [7] 1 (5000000000 * 10000) 1).1 :=
  ⟨⟨fun _ => [3], 0, fun _ => 0, fun _ => true, 10000000⟩, by decide +kernel⟩

/-- a wait that succeeds on the third load -/
example : (waitEqual ⟨fun i => if i < 2 then [3] else [7], 0, fun _ => 100, fun _ => true, 10000000⟩ [7] 1 20000 5).2 = some true := by decide +kernel

#print axioms C35_true_sound
#print axioms C35_poll
#print axioms C35_inf_first
#print axioms C35_false_reason

end Verif.WaitAddr
