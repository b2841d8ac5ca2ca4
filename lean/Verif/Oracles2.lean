import Verif.Oracles
import Verif.BitMap.Model
import Verif.MathUtils.Model

/-! # When the models are undefined: the remaining basic actions -/

namespace Verif.Arr
variable {α : Type}

/-- a store through the pointer `LockBufferAndSetSize` returned, at the static empty block or past the size -/
theorem C18_write {T : Ty α} {m : Mem α} {p k : Nat} {v : α} {d : Blk α} (hd : m p = some d) (h : p = 0 ∨ d.size ≤ k) : write T m p k v = .ub := by
  unfold write
  rw [hd]
  simp only [h, if_true]

/-- … of a block that is gone -/
theorem C18_write_gone {T : Ty α} {m : Mem α} {p k : Nat} {v : α} (hd : m p = none) : write T m p k v = .ub := by
  unfold write
  rw [hd]

/-- `Lock` throws exactly for storage that is shared (or has no owner), `Unlock` for storage that is not locked -/
theorem C20_lock_throws (d : Blk α) :
    (lockBlk d = none ↔ d.iRef ≠ 9223372036854775807 ∧ (1 < d.iRef ∨ d.iRef = 0)) ∧ (unlockBlk d = none ↔ d.iRef ≠ 9223372036854775807 ∧ 0 < d.iRef) := by
  unfold lockBlk unlockBlk Blk.isReadOnly imax
  constructor
  · by_cases h1 : d.iRef = 9223372036854775807
    · simp [h1]
    · by_cases h2 : 1 < d.iRef ∨ d.iRef = 0 <;> simp [h1, h2]
  · by_cases h1 : d.iRef = 9223372036854775807
    · simp [h1]
    · by_cases h2 : 0 < d.iRef
      · simp [h1, h2]
      · simp [h1, h2]

end Verif.Arr

namespace Verif.BitMap
open Portable

/-- 32-bit shifts are defined below 32 -/
theorem C24_shifts (w : BitVec 32) (v : BitVec 64) (i : Nat) :
    (bitFind32 w i = none ↔ 32 ≤ i) ∧ (bitSet64 v i = none ↔ 32 ≤ i) ∧ (bitReset64 v i = none ↔ 32 ≤ i) := by
  unfold bitFind32 bitSet64 bitReset64
  by_cases h : 32 ≤ i <;> simp [h]

end Verif.BitMap

namespace Verif.MathUtils

/-- the `div` instruction faults exactly when the quotient needs more than 64 bits (or the divisor is zero) -/
theorem C36_div_faults {hi lo d : Nat} (hl : lo < 2 ^ 64) : hwDiv hi lo d = none ↔ d = 0 ∨ 2 ^ 64 ≤ (hi * 2 ^ 64 + lo) / d := by
  unfold hwDiv
  rcases Nat.eq_zero_or_pos d with rfl | hd
  · simp
  · rw [Nat.le_div_iff_mul_le hd]
    by_cases h : d ≤ hi
    · simp only [h, if_true, true_iff]
      right
      calc 2 ^ 64 * d ≤ 2 ^ 64 * hi := Nat.mul_le_mul_left _ h
        _ ≤ _ := by omega
    · simp only [h, if_false]
      constructor
      · intro h; cases h
      · rintro (h | h)
        · omega
        · omega

/-- signed 64-bit results -/
theorem C36_overflow (x : Int) : i64 x = none ↔ x < -9223372036854775808 ∨ 9223372036854775807 < x := by
  unfold i64
  by_cases h : -2 ^ 63 ≤ x ∧ x < 2 ^ 63
  · simp only [h, and_self, if_true]
    constructor
    · intro h; cases h
    · omega
  · simp only [h, if_false, true_iff]
    omega

/-- the portable division by zero is undefined -/
theorem C36_udiv_zero (hi lo : Nat) : udiv128 hi lo 0 = none := by
  unfold udiv128
  simp

end Verif.MathUtils

namespace Verif.Alloc

/-- `realloc` wants the start of a living block -/
theorem C91_realloc_start (h : Heap) (p : Ptr) (n : Nat) (fill : Cell) (ok : Bool) :
    reallocWith h (some p) n fill ok = .ub ↔ p.off ≠ 0 ∨ ∀ c, h[p.blk]? ≠ some (some c) := by
  unfold reallocWith
  cases hb : h[p.blk]? with
  | none => simp [hb]
  | some x =>
    cases x with
    | none => simp [hb]
    | some c => by_cases ho : p.off = 0 <;> by_cases hn : n = 0 <;> cases ok <;> simp [hb, ho, hn]

/-- `Delete` wants a living object whose address is the start of its block -/
theorem C91_delete {s : St} {i : Nat} {o : Obj} (hi : s.objs[i]? = some o) (h : o.alive = false ∨ o.adj ≠ 0) : delete s i = .ub := by
  unfold delete
  rw [hi]
  rcases h with h | h
  · simp [h]
  · have : free s.heap (some ⟨o.blk, o.adj⟩) = .ub := (C91_free _ _).2 (.inl h)
    simp only [this]
    split <;> rfl

end Verif.Alloc
