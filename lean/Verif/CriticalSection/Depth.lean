import Verif.CriticalSection.Props
/-!
# C31 – the section is released one `Unlock` too early, at every depth
-/
namespace Verif.CriticalSection

/-- Thread `t`, already inside with `ref = r` and `k` acquisitions, acquires `n` more times. -/
theorem run_locks (t : Nat) : ∀ (n : Nat) (r k : Nat) (c : Nat → Nat), c t = k → ∀ rest,
    ∃ c', c' t = k + n ∧ (∀ u, u ≠ t → c' u = c u) ∧
      run ⟨true, t, BitVec.ofNat 32 r⟩ c (List.replicate n (.lock t) ++ rest) = run ⟨true, t, BitVec.ofNat 32 (r + n)⟩ c' rest := by
  intro n
  induction n with
  | zero => intro r k c hc rest; exact ⟨c, hc, fun _ _ => rfl, rfl⟩
  | succ n ih =>
    intro r k c hc rest
    obtain ⟨c', h1, h2, h3⟩ := ih (r + 1) (k + 1) (fun u => if u = t then c t + 1 else c u) (by simp [hc]) rest
    refine ⟨c', by omega, fun u hu => by rw [h2 u hu]; simp [hu], ?_⟩
    rw [List.replicate_succ, List.cons_append]
    simp only [run, step, lock, if_true, Option.map_some]
    have e : (BitVec.ofNat 32 r + 1 : BitVec 32) = BitVec.ofNat 32 (r + 1) := by
      rw [BitVec.ofNat_add]; rfl
    rw [e, h3, Nat.add_assoc, Nat.add_comm 1 n]

/-- It releases `n` times, without reaching `ref = 0`. -/
theorem run_unlocks (t : Nat) : ∀ (n : Nat) (r k : Nat) (c : Nat → Nat), c t = k → n ≤ k → n < r → r < 2 ^ 32 → ∀ rest,
    ∃ c', c' t = k - n ∧ (∀ u, u ≠ t → c' u = c u) ∧
      run ⟨true, t, BitVec.ofNat 32 r⟩ c (List.replicate n (.unlock t) ++ rest) = run ⟨true, t, BitVec.ofNat 32 (r - n)⟩ c' rest := by
  intro n
  induction n with
  | zero => intro r k c hc _ _ _ rest; exact ⟨c, hc, fun _ _ => rfl, rfl⟩
  | succ n ih =>
    intro r k c hc hk hr hlt rest
    obtain ⟨c', h1, h2, h3⟩ := ih (r - 1) (k - 1) (fun u => if u = t then c t - 1 else c u) (by simp [hc]) (by omega) (by omega) (by omega) rest
    refine ⟨c', by omega, fun u hu => by rw [h2 u hu]; simp [hu], ?_⟩
    rw [List.replicate_succ, List.cons_append]
    have e : (BitVec.ofNat 32 r - 1 : BitVec 32) = BitVec.ofNat 32 (r - 1) := by
      obtain ⟨q, rfl⟩ : ∃ q, r = q + 1 := ⟨r - 1, by omega⟩
      rw [BitVec.ofNat_add, Nat.add_sub_cancel]
      exact BitVec.add_sub_cancel _ _
    have hne : BitVec.ofNat 32 (r - 1) ≠ 0 := by
      intro h
      have := congrArg BitVec.toNat h
      rw [BitVec.toNat_ofNat, Nat.mod_eq_of_lt (by omega)] at this
      simp at this
      omega
    simp only [run, step, unlock, e]
    rw [if_neg hne, h3]
    have : r - 1 - n = r - (n + 1) := by omega
    rw [this]

/-- **C31 fails at every depth.** A thread that enters `n ≥ 2` times (at most 2³² times) and leaves `n - 1` times is still inside once, but the
section is free: any other thread that calls `Lock` or `TryLock` gets in. -/
theorem C31_depth_fails (t : Nat) (ht : t ≠ 0) (n : Nat) (h2 : 2 ≤ n) (hn : n ≤ 2 ^ 32) :
    ∃ s c, run {} (fun _ => 0) (List.replicate n (.lock t) ++ List.replicate (n - 1) (.unlock t)) = some (s, c) ∧ c t = 1 ∧
      ∀ u, u ≠ 0 → (∃ s', lock s u = some s') ∧ (tryLock s u).2 = true := by
  obtain ⟨m, rfl⟩ : ∃ m, n = m + 2 := ⟨n - 2, by omega⟩
  have hrep : List.replicate (m + 2 - 1) (Op.unlock t) = List.replicate m (Op.unlock t) ++ [Op.unlock t] := by
    rw [show m + 2 - 1 = m + 1 from rfl, List.replicate_succ']
  obtain ⟨c1, a1, a2, a3⟩ := run_locks t (m + 1) 0 1 (fun u => if u = t then 1 else 0) (by simp)
    (List.replicate m (Op.unlock t) ++ [Op.unlock t])
  obtain ⟨c2, b1, b2, b3⟩ := run_unlocks t m (m + 1) (m + 2) c1 (by omega) (by omega) (by omega) (by omega) [Op.unlock t]
  refine ⟨⟨false, 0, 0⟩, fun u => if u = t then c2 t - 1 else c2 u, ?_, by simp [b1], fun u hu => ?_⟩
  · rw [hrep, List.replicate_succ, List.cons_append]
    have e0 : lock {} t = some ⟨true, t, BitVec.ofNat 32 0⟩ := by
      simp only [lock]
      rw [if_neg (fun h => ht h.symm)]
      rfl
    simp only [run, step, e0, Option.map_some]
    rw [Nat.zero_add] at a3
    rw [a3, b3]
    have : m + 1 - m = 1 := by omega
    rw [this]
    simp [run, step, unlock]
  · refine ⟨⟨_, by simp only [lock]; rw [if_neg (fun h => hu h.symm)]; rfl⟩, by simp only [tryLock]; rw [if_neg (fun h => hu h.symm)]; rfl⟩

example : ∃ s c, run {} (fun _ => 0) [.lock 7, .lock 7, .lock 7, .unlock 7, .unlock 7] = some (s, c) ∧ c 7 = 1 ∧ lock s 8 ≠ none :=
  ⟨_, _, rfl, by decide, by decide⟩

#print axioms C31_depth_fails

end Verif.CriticalSection
