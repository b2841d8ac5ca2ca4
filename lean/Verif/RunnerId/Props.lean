import Verif.RunnerId.Model
/-!
# C110 – ids of task runners
-/
namespace Verif.RunnerId
open Verif.Common

/-- number `k` is in use -/
def PC.num (k : Nat) : PC → Nat
  | .got k' _ => if k' = k then 1 else 0
  | .idle => 0

def Runner.num (k : Nat) (r : Runner) : Nat := if r.k = k then 1 else 0

structure Inv (s : St) : Prop where
  ctr : s.ctr = BitVec.ofNat 32 s.n
  hand : ∀ k id, PC.got k id ∈ s.threads → k < s.n ∧ id = BitVec.ofNat 32 (k + 1)
  live : ∀ r ∈ s.live, r.k < s.n ∧ r.id = BitVec.ofNat 32 (r.k + 1)
  once : ∀ k, sumBy (PC.num k) s.threads + sumBy (Runner.num k) s.live ≤ 1

theorem sumBy_erase {α} (f : α → Nat) (l : List α) (j : Nat) : sumBy f (l.eraseIdx j) ≤ sumBy f l := by
  induction l generalizing j with
  | nil => simp
  | cons a l ih =>
    cases j with
    | zero => simp
    | succ j => simp; exact ih j

theorem inv_step {s s' : St} (I : Inv s) (hs : Step s s') : Inv s' := by
  cases hs with
  | gen i h =>
    refine ⟨?_, ?_, ?_, fun k => ?_⟩
    · show s.ctr + 1 = _
      rw [I.ctr, BitVec.ofNat_add]; rfl
    · intro k id hm
      rcases mem_set hm with e | e
      · cases e
        refine ⟨by dsimp only; omega, ?_⟩
        rw [I.ctr, BitVec.ofNat_add]; rfl
      · have := I.hand k id e
        exact ⟨by dsimp only; omega, this.2⟩
    · intro r hr
      have := I.live r hr
      exact ⟨by dsimp only; omega, this.2⟩
    · have e := sumBy_set (PC.num k) _ _ (.got s.n (s.ctr + 1)) _ h
      have := I.once k
      dsimp only
      by_cases hk : s.n = k
      · have a : sumBy (PC.num k) s.threads = 0 := by
          rw [sumBy_eq_zero]; intro pc hm
          cases pc with
          | idle => rfl
          | got k' id =>
            have := I.hand k' id hm
            have : k' ≠ k := by omega
            simp [PC.num, this]
        have b : sumBy (Runner.num k) s.live = 0 := by
          rw [sumBy_eq_zero]; intro r hm
          have := I.live r hm
          have : r.k ≠ k := by omega
          simp [Runner.num, this]
        simp only [PC.num, if_pos hk] at e
        omega
      · simp only [PC.num, if_neg hk] at e
        omega
  | store i k id h =>
    have hk := I.hand k id (List.mem_of_getElem? h)
    refine ⟨I.ctr, ?_, ?_, fun k' => ?_⟩
    · intro k' id' hm
      rcases mem_set hm with e | e
      · cases e
      · exact I.hand k' id' e
    · intro r hr
      rcases List.mem_append.1 hr with e | e
      · exact I.live r e
      · rw [List.mem_singleton] at e; subst e; exact hk
    · have e := sumBy_set (PC.num k') _ _ .idle _ h
      have := I.once k'
      dsimp only
      rw [sumBy_append]
      have e2 : sumBy (Runner.num k') [⟨k, id⟩] = if k = k' then 1 else 0 := by simp [Runner.num]
      simp only [PC.num] at e
      omega
  | destroy j =>
    refine ⟨I.ctr, I.hand, fun r hr => I.live r (List.mem_of_mem_eraseIdx hr), fun k => ?_⟩
    have := I.once k
    have := sumBy_erase (Runner.num k) s.live j
    dsimp only
    omega

theorem inv_reach {s : St} (h : Reach s) : Inv s := by
  induction h with
  | init n =>
    refine ⟨rfl, ?_, by simp, fun k => ?_⟩
    · intro k id hm
      have := List.eq_of_mem_replicate hm
      cases this
    · have : sumBy (PC.num k) (List.replicate n PC.idle) = 0 := by
        rw [sumBy_eq_zero]; intro x hx
        rw [List.eq_of_mem_replicate hx]; rfl
      simp [this]
  | step _ hs ih => exact inv_step ih hs

theorem ofNat_inj (a b : Nat) : BitVec.ofNat 32 a = BitVec.ofNat 32 b ↔ a % 4294967296 = b % 4294967296 := by
  constructor
  · intro h
    have := congrArg BitVec.toNat h
    rwa [BitVec.toNat_ofNat, BitVec.toNat_ofNat] at this
  · intro h
    apply BitVec.eq_of_toNat_eq
    rwa [BitVec.toNat_ofNat, BitVec.toNat_ofNat]

/-- Under every schedule two runners alive at the same time have different numbers, and they share an id exactly when the numbers differ by a multiple of 2^32. -/
theorem C110_collide {s : St} (h : Reach s) {i j : Nat} {a b : Runner} (hij : i ≠ j) (ha : s.live[i]? = some a) (hb : s.live[j]? = some b) :
    a.k ≠ b.k ∧ (a.id = b.id ↔ a.k % 2 ^ 32 = b.k % 2 ^ 32) := by
  have I := inv_reach h
  have h1 := I.live a (List.mem_of_getElem? ha)
  have h2 := I.live b (List.mem_of_getElem? hb)
  refine ⟨fun e => ?_, ?_⟩
  · have := add_le_sumBy (Runner.num b.k) _ _ _ _ _ hij ha hb
    have := I.once b.k
    simp only [Runner.num, e, if_true] at *
    omega
  · rw [h1.2, h2.2, ofNat_inj]; omega

/-- Documented: the id is unique. It is, and it is never 0, as long as fewer than 2^32 runners have been constructed in the process, whatever the schedule. -/
theorem C110_unique_partial {s : St} (h : Reach s) (hn : s.n < 2 ^ 32) :
    (∀ r ∈ s.live, r.id ≠ 0) ∧ ∀ (i j : Nat) (a b : Runner), i ≠ j → s.live[i]? = some a → s.live[j]? = some b → a.id ≠ b.id := by
  have I := inv_reach h
  refine ⟨fun r hr => ?_, fun i j a b hij ha hb e => ?_⟩
  · have := I.live r hr
    rw [this.2]
    show _ ≠ BitVec.ofNat 32 0
    rw [Ne, ofNat_inj]; omega
  · obtain ⟨hk, hc⟩ := C110_collide h hij ha hb
    have := hc.1 e
    have h1 := I.live a (List.mem_of_getElem? ha)
    have h2 := I.live b (List.mem_of_getElem? hb)
    omega

/-- also ids just handed out and not yet stored differ from those in use -/
theorem C110_fresh_partial {s : St} (h : Reach s) (hn : s.n < 2 ^ 32) {i k : Nat} {id : U32} (hi : s.threads[i]? = some (.got k id)) :
    (∀ r ∈ s.live, r.id ≠ id) ∧ ∀ j k' id', j ≠ i → s.threads[j]? = some (.got k' id') → id' ≠ id := by
  have I := inv_reach h
  have h1 := I.hand k id (List.mem_of_getElem? hi)
  have := I.once k
  have l1 := le_sumBy (PC.num k) _ _ _ hi
  simp only [PC.num, if_true] at l1
  refine ⟨fun r hr e => ?_, fun j k' id' hj hi' e => ?_⟩
  · have h2 := I.live r hr
    have l2 := le_sumBy_of_mem (Runner.num k) _ _ hr
    rw [h1.2, h2.2, ofNat_inj] at e
    have : r.k = k := by omega
    simp only [Runner.num, this, if_true] at l2
    omega
  · have h2 := I.hand k' id' (List.mem_of_getElem? hi')
    rw [h1.2, h2.2, ofNat_inj] at e
    have hk : k' = k := by omega
    have := add_le_sumBy (PC.num k) _ _ _ _ _ hj hi' hi
    simp only [PC.num, hk, if_true] at this
    omega

/-- a thread constructs and destroys `m` runners while the first one lives -/
theorem churn (r : Runner) (m : Nat) : ∀ {n : Nat} {c : U32}, Reach { ctr := c, threads := [.idle], live := [r], n := n } →
    Reach { ctr := c + BitVec.ofNat 32 m, threads := [.idle], live := [r], n := n + m } := by
  induction m with
  | zero => intro n c h; simpa using h
  | succ m ih =>
    intro n c h
    have h1 := Reach.step (ih h) (.gen _ 0 rfl)
    have h2 := Reach.step h1 (.store _ 0 _ _ rfl)
    have h3 := Reach.step h2 (.destroy _ 1)
    have e : c + BitVec.ofNat 32 (m + 1) = c + BitVec.ofNat 32 m + 1 := by
      rw [BitVec.ofNat_add, ← BitVec.add_assoc]; rfl
    rw [e, ← Nat.add_assoc]
    exact h3

/-- Without that bound the documented property fails: two runners that are alive at the same time have the same id. -/
theorem C110_unique_fails : ∃ s, Reach s ∧ ∃ (i j : Nat) (a b : Runner), i ≠ j ∧ s.live[i]? = some a ∧ s.live[j]? = some b ∧ a.id = b.id := by
  have h0 : Reach { ctr := 1, threads := [.idle], live := [⟨0, 1⟩], n := 1 } :=
    Reach.step (Reach.step (.init 1) (.gen _ 0 rfl)) (.store _ 0 _ _ rfl)
  have h1 := churn _ (2 ^ 32 - 1) h0
  generalize hc : (1 : U32) + BitVec.ofNat 32 (2 ^ 32 - 1) = c at h1
  generalize 1 + (2 ^ 32 - 1) = n at h1
  have h2 := Reach.step h1 (.gen _ 0 rfl)
  have h3 := Reach.step h2 (.store _ 0 _ _ rfl)
  refine ⟨_, h3, 0, 1, _, _, by decide, rfl, rfl, ?_⟩
  show 1 = c + 1
  rw [← hc]; decide +kernel

/-- and an id can be 0 -/
theorem C110_zero_fails : ∃ s, Reach s ∧ ∃ r ∈ s.live, r.id = 0 := by
  have h0 : Reach { ctr := 1, threads := [.idle], live := [⟨0, 1⟩], n := 1 } :=
    Reach.step (Reach.step (.init 1) (.gen _ 0 rfl)) (.store _ 0 _ _ rfl)
  have h1 := churn _ (2 ^ 32 - 2) h0
  generalize hc : (1 : U32) + BitVec.ofNat 32 (2 ^ 32 - 2) = c at h1
  generalize 1 + (2 ^ 32 - 2) = n at h1
  have h2 := Reach.step h1 (.gen _ 0 rfl)
  have h3 := Reach.step h2 (.store _ 0 _ _ rfl)
  refine ⟨_, h3, ⟨n, c + 1⟩, List.mem_append_right _ (List.mem_singleton.2 rfl), ?_⟩
  show c + 1 = 0
  rw [← hc]; decide +kernel

/-- three threads, interleaved -/
example : ∃ s, Reach s ∧ s.n < 2 ^ 32 ∧ s.live.map Runner.id = [2, 1] ∧ ∃ i k : Nat, s.threads[i]? = some (PC.got k 3) := by
  have h1 := Reach.step (.init 3) (.gen _ 0 rfl)
  have h2 := Reach.step h1 (.gen _ 1 rfl)
  have h3 := Reach.step h2 (.store _ 1 _ _ rfl)
  have h4 := Reach.step h3 (.gen _ 2 rfl)
  have h5 := Reach.step h4 (.store _ 0 _ _ rfl)
  exact ⟨_, h5, by decide, by decide, 2, _, rfl⟩

end Verif.RunnerId
