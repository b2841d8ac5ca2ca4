import Verif.StrHeap.Witness

/-! # Stores through the pointer `LockBuffer` returns (C10) -/
namespace Verif.StrHeap

/-- a store is defined exactly when the block lives, is not the static empty one, and the position is at most the capacity (its terminator) -/
theorem C10_store_bounds (m : Mem) (p k c : Nat) :
    write m p k c = .ub ↔ p = 0 ∨ m p = none ∨ ∃ d, m p = some d ∧ d.cap < k := by
  unfold write wr
  cases hd : m p with
  | none => simp
  | some d =>
    by_cases h0 : p = 0
    · simp [h0]
    · by_cases hk : d.cap < k <;> simp [h0, hk]

/-- a store changes one character of one block -/
theorem C10_store_frame {m m' : Mem} {p q k c : Nat} (h : write m p k c = .ret .ok m' q) :
    q = p ∧ (∀ a, a ≠ p → m' a = m a) ∧
      ∃ d d', m p = some d ∧ m' p = some d' ∧ d'.iRef = d.iRef ∧ d'.cap = d.cap ∧ d'.size = d.size ∧ d'.buf k = c ∧ ∀ x, x ≠ k → d'.buf x = d.buf x := by
  unfold write wr at h
  cases hd : m p with
  | none => simp [hd] at h
  | some d =>
    by_cases h0 : p = 0
    · simp [hd, h0] at h
      simp [h0 ▸ hd] at h
    · by_cases hk : d.cap < k
      · simp [hd, h0, hk] at h
      · simp only [hd, h0, hk, if_false] at h
        injection h with _ h1 h2
        subst h1 h2
        exact ⟨rfl, fun a ha => by simp [upd, ha], d, _, rfl, if_pos rfl, rfl, rfl, rfl, by simp, fun x hx => by simp [hx]⟩

theorem doLock_cap {m m' : Mem} {p q : Nat} (h : doLock m p = .ret .ok m' q) : q = p ∧ ∃ d d', m p = some d ∧ m' p = some d' ∧ d'.cap = d.cap := by
  unfold doLock at h
  cases hd : m p with
  | none => simp [hd] at h
  | some d =>
    simp only [hd] at h
    split at h
    · injection h with _ h1 h2; subst h1 h2; exact ⟨rfl, d, d, rfl, hd, rfl⟩
    · split at h
      · cases h
      · injection h with _ h1 h2; subst h1 h2
        exact ⟨rfl, d, _, rfl, if_pos rfl, rfl⟩

theorem round16_le (n : Nat) : n ≤ round16 (n + 1) - 1 := by unfold round16; omega

theorem release_other {m m' : Mem} {p a : Nat} (h : release m p = some m') (ha : a ≠ p) : m' a = m a := by
  unfold release at h
  cases hd : m p with
  | none => simp [hd] at h
  | some d =>
    simp only [hd] at h
    split at h
    · injection h with h; rw [h]
    · split at h
      · injection h with h; subst h; exact upd_ne _ _ ha
      · split at h <;> (injection h with h; subst h; exact upd_ne _ _ ha)

/-- a pointer `LockBuffer(n)` returns has room for `n` characters and a terminator -/
theorem C10_lock_room {cls p n q : Nat} {m m' : Mem} {al : Al} (fresh : ∀ a j, al = some (a, j) → m a = none) (h : lockBuffer cls m p n al = .ret .ok m' q) :
    ∃ d, m' q = some d ∧ n ≤ d.cap := by
  unfold lockBuffer at h
  cases hd : m p with
  | none => simp [hd] at h
  | some d =>
    simp only [hd] at h
    have hn : n ≤ (if n < d.size then d.size else n) := by split <;> omega
    have hs : d.size ≤ (if n < d.size then d.size else n) := by split <;> omega
    generalize (if n < d.size then d.size else n) = w at h hn hs
    split at h
    · rename_i h0
      injection h with _ h1 h2; subst h1 h2
      exact ⟨d, hd, by omega⟩
    · rename_i h0
      split at h
      · -- a copy
        have hw : (if w < d.size then d.size else w) = w := if_neg (by omega)
        unfold cloneData at h
        simp only [hw] at h
        by_cases w0 : w = 0
        · simp only [w0, if_true] at h
          cases hr : release m p with
          | none => simp [hr] at h
          | some m2 =>
            simp only [hr] at h
            obtain ⟨rfl, e, e', _, he, _⟩ := doLock_cap h
            exact ⟨e', he, by omega⟩
        · simp only [w0, if_false] at h
          unfold allocData at h
          simp only [w0, if_false] at h
          cases al with
          | none => simp at h
          | some x =>
            obtain ⟨a, j⟩ := x
            have hf := fresh a j rfl
            have ha : p ≠ a := by rintro rfl; rw [hf] at hd; cases hd
            dsimp only at h
            rw [upd_eq] at h
            dsimp only at h
            split at h
            · cases h
            · rename_i m2 hm
              obtain ⟨rfl, e1, e', h1, h2, h3⟩ := doLock_cap h
              rw [release_other hm ha.symm, upd_eq] at h1
              cases h1
              have := round16_le w
              exact ⟨e', h2, by rw [h3]; dsimp only; omega⟩
      · split at h
        · rename_i hc
          split at h
          · cases h
          · unfold reallocData at h
            rw [if_neg (by omega)] at h
            cases al with
            | none => simp at h
            | some x =>
              obtain ⟨a, j⟩ := x
              dsimp only at h
              obtain ⟨rfl, e1, e', h1, h2, h3⟩ := doLock_cap h
              simp only [upd, if_true] at h1
              cases h1
              refine ⟨e', h2, ?_⟩
              rw [h3]
              dsimp only
              unfold round16
              split <;> omega
        · obtain ⟨rfl, e1, e', h1, h2, h3⟩ := doLock_cap h
          rw [hd] at h1
          cases h1
          exact ⟨e', h2, by omega⟩

#print axioms C10_store_bounds
#print axioms C10_store_frame
#print axioms C10_lock_room

end Verif.StrHeap
