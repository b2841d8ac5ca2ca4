import Verif.BitMap.Lemmas
/-!
# C24 – BitMap agrees with a set of indices
-/
namespace Verif.BitMap

/-! ## Specification: a set of indices as a Boolean function -/

def specSet (S : Nat → Bool) (i : Nat) (v : Bool) : Nat → Bool := fun j => if j = i then v else S j

/-- final set and the previous states returned by each call -/
def specRun (S : Nat → Bool) : List (Nat × Bool) → (Nat → Bool) × List Bool
  | [] => (S, [])
  | (i, v) :: ops => let (T, rs) := specRun (specSet S i v) ops; (T, S i :: rs)

/-- `r` is the answer of "first member `≥ i` below `n`, or -1". -/
def IsFirst (S : Nat → Bool) (n i : Nat) (r : Int) : Prop :=
  (∃ k : Nat, r = k ∧ i ≤ k ∧ k < n ∧ S k = true ∧ ∀ j, i ≤ j → j < k → S j = false) ∨
  (r = -1 ∧ ∀ j, i ≤ j → j < n → S j = false)

/-- number of members below `n` -/
def size (S : Nat → Bool) (n : Nat) : Nat := (List.range n).countP S

theorem size_specSet (S : Nat → Bool) (n i : Nat) (v : Bool) :
    size (specSet S i v) n + (if i < n then (S i).toNat else 0) = size S n + (if i < n then v.toNat else 0) := by
  induction n with
  | zero => simp [size]
  | succ n ih =>
    have e1 : ∀ T : Nat → Bool, size T (n+1) = size T n + (T n).toNat := by
      intro T; simp only [size, List.range_succ, List.countP_append]; cases h : T n <;> simp [h]
    rw [e1, e1]
    by_cases h : i = n
    · subst h; simp [specSet] at ih ⊢; omega
    · have h' : n ≠ i := fun e => h e.symm
      have : specSet S i v n = S n := by simp [specSet, h']
      rw [this]
      by_cases hlt : i < n
      · have : i < n + 1 := by omega
        simp [hlt, this] at ih ⊢; omega
      · have : ¬ i < n + 1 := by omega
        simp [hlt, this] at ih ⊢; omega

theorem size_le (S : Nat → Bool) (n : Nat) : size S n ≤ n := by
  have := List.countP_le_length (p := S) (l := List.range n); simpa [size] using this

structure Rel {W} (uBits : Nat) (m : Map W) (S : Nat → Bool) : Prop where
  len : m.words.length = (uBits + W - 1) / W
  bits : ∀ j, bit m.words j = S j
  range : ∀ j, S j = true → j < uBits
  count : m.count.toNat = size S uBits

theorem div_lt_len {W uBits i : Nat} (hW : 0 < W) (hi : i < uBits) : i / W < (uBits + W - 1) / W := by
  rw [Nat.lt_div_iff_mul_lt hW]
  have := Nat.div_mul_le_self i W
  omega

theorem setItem_rel {W} (hW : 0 < W) {uBits : Nat} (hB : uBits < 4294967296) {m : Map W} {S} (r : Rel uBits m S) (i : Nat) (v : Bool) (hi : i < uBits) :
    ∃ m', setItem m i v = some (m', S i) ∧ Rel uBits m' (specSet S i v) := by
  obtain ⟨ws', h1, h2, h3⟩ := writeBit_spec hW m.words i v (by rw [r.len]; exact div_lt_len hW hi)
  have hs := size_specSet S uBits i v
  simp only [hi, if_true] at hs
  have hle := size_le S uBits
  have hle' := size_le (specSet S i v) uBits
  have hc := r.count
  have hb : ∀ j, bit ws' j = specSet S i v j := by
    intro j; rw [h3, specSet, r.bits]
  have hr : ∀ j, specSet S i v j = true → j < uBits := by
    intro j; simp only [specSet]; split
    · intro _; omega
    · exact r.range j
  rw [r.bits] at h1
  simp only [setItem, h1]
  cases v <;> cases hSi : S i <;> simp only [hSi, Bool.toNat_true, Bool.toNat_false, Bool.false_eq_true, if_true, if_false] at hs ⊢ <;>
    refine ⟨_, rfl, h2.trans r.len, hb, hr, ?_⟩
  · show m.count.toNat = _; omega
  · show (m.count - 1).toNat = _; rw [BitVec.toNat_sub]; simp; omega
  · show (m.count + 1).toNat = _; rw [BitVec.toNat_add]; simp; omega
  · show m.count.toNat = _; omega

theorem rel_empty {W} (_hW : 0 < W) (uBits : Nat) : Rel uBits (Map.empty W uBits) (fun _ => false) := by
  refine ⟨by simp [Map.empty], fun j => ?_, by simp, ?_⟩
  · simp only [bit, Map.empty, List.getElem?_replicate]; split <;> simp
  · simp [Map.empty, size]

theorem run_rel {W} (hW : 0 < W) {uBits : Nat} (hB : uBits < 4294967296) {m : Map W} {S} (r : Rel uBits m S)
    (ops : List (Nat × Bool)) (ho : ∀ op ∈ ops, op.1 < uBits) :
    ∃ m', run m ops = some (m', (specRun S ops).2) ∧ Rel uBits m' (specRun S ops).1 := by
  induction ops generalizing m S with
  | nil => exact ⟨m, rfl, r⟩
  | cons op ops ih =>
    obtain ⟨i, v⟩ := op
    obtain ⟨m1, h1, r1⟩ := setItem_rel hW hB r i v (ho (i, v) (by simp))
    obtain ⟨m2, h2, r2⟩ := ih r1 (fun op hop => ho op (by simp [hop]))
    exact ⟨m2, by simp only [run, h1, h2, specRun], r2⟩

/-- **C24 (Windows variants, 32- and 64-bit words).** After any history of `SetItem` calls with valid indices:
each call returned the previous membership, `GetItem` reports membership, `GetSize` is the number of members, `IsEmpty` means there is
no member, and `Find(i)` – for any `i`, also out of range – is the first member `≥ i` or -1. -/
theorem C24_history {W : Nat} (hW : 0 < W) (uBits : Nat) (hB : uBits + W ≤ 2147483648)
    (ops : List (Nat × Bool)) (ho : ∀ op ∈ ops, op.1 < uBits) :
    ∃ m : Map W, run (Map.empty W uBits) ops = some (m, (specRun (fun _ => false) ops).2) ∧
      (∀ i, i < uBits → getItem m i = some ((specRun (fun _ => false) ops).1 i)) ∧
      m.count.toNat = size (specRun (fun _ => false) ops).1 uBits ∧
      (isEmpty m = true ↔ ∀ i, i < uBits → (specRun (fun _ => false) ops).1 i = false) ∧
      (∀ i, ∃ r, find uBits m i = some r ∧ IsFirst (specRun (fun _ => false) ops).1 uBits i r) := by
  obtain ⟨m, h1, r⟩ := run_rel hW (by omega) (rel_empty hW uBits) ops ho
  refine ⟨m, h1, ?_, r.count, ?_, ?_⟩
  · intro i hi
    have hl : i / W < m.words.length := by rw [r.len]; exact div_lt_len hW hi
    rw [← r.bits i]
    simp only [getItem, bit, List.getElem?_eq_getElem hl, Option.map_some, Option.getD_some]
  · have hz : isEmpty m = true ↔ m.count.toNat = 0 := by
      simp only [isEmpty, decide_eq_true_eq]
      constructor
      · intro h; rw [h]; rfl
      · intro h; exact BitVec.eq_of_toNat_eq (by simpa using h)
    rw [hz, r.count, size, List.countP_eq_zero]
    simp
  · intro i
    by_cases hi : i < uBits
    · have hl : i / W < m.words.length := by rw [r.len]; exact div_lt_len hW hi
      have hsz : m.words.length * W ≤ 2147483648 := by
        rw [r.len]
        have := Nat.div_mul_le_self (uBits + W - 1) W
        omega
      obtain ⟨x, h2, h3⟩ := find_spec hW uBits m i hi hl hsz
      refine ⟨x, h2, ?_⟩
      rcases h3 with ⟨k, q1, q2, q3, q4⟩ | ⟨q1, q2⟩
      · left
        rw [r.bits] at q3
        exact ⟨k, q1, q2, r.range k q3, q3, fun j a b => by rw [← r.bits]; exact q4 j a b⟩
      · right
        exact ⟨q1, fun j a _ => by rw [← r.bits]; exact q2 j a⟩
    · refine ⟨-1, by simp [find, show uBits ≤ i by omega], .inr ⟨rfl, fun j a b => by omega⟩⟩

/-- Non-vacuity: a concrete history on 128 bits in two 64-bit words, crossing the word boundary. -/
example : ∀ op ∈ [(3, true), (64, true), (3, false), (127, true)], op.1 < 128 := by decide
example : find 128 (⟨[0, 0x8000000000000001#64], 2⟩ : Map 64) 3 = some 64 := by decide

/-- **C24 fails on the portable 64-bit branch.**
(1) `Find(0)` on an empty map is undefined behaviour (shift by 2^32-32);
(2) `Find(32)` on an empty map answers 0 instead of -1;
(3) `SetItem(32, true)` is undefined behaviour (32-bit shift by 32);
(4) clearing bit 0 in a word also clears bit 40. -/
theorem C24_portable_fails :
    Portable.find 64 (Map.empty 64 64) 0 = none ∧
    Portable.find 64 (Map.empty 64 64) 32 = some 0 ∧
    Portable.setItem (Map.empty 64 64) 32 true = none ∧
    (∃ m', Portable.setItem ⟨[0x10000000001#64], 2⟩ 0 false = some (m', true) ∧ getItem m' 40 = some false) := by
  refine ⟨by decide, by decide, by decide, ⟨[0], 1⟩, by decide, by decide⟩

/-- **C24 on the portable 64-bit branch, partial**: setting one of the first 32 bits works as specified, in every map. (Missing: the other bits, clearing and `Find`, see `C24_portable_fails`.) -/
theorem C24_portable_set_partial (w : BitVec 64) (ws : List (BitVec 64)) (c : BitVec 32) (i : Nat) (hi : i < 32) :
    ∃ m', Portable.setItem ⟨w :: ws, c⟩ i true = some (m', w.getLsbD i) ∧ m'.count = (if w.getLsbD i then c else c + 1) ∧
      ∀ j, getItem m' j = if j = i then some true else getItem ⟨w :: ws, c⟩ j := by
  have hm : ∀ k, k < 64 → ((1#32 <<< i).setWidth 64).getLsbD k = decide (k = i) := by
    intro k hk
    rw [BitVec.getLsbD_setWidth, BitVec.getLsbD_shiftLeft]
    by_cases e : k = i
    · subst e; simp [hk, hi]
    · simp only [e, decide_false]
      by_cases h1 : k < i
      · simp [h1]
      · have : 1 ≤ k - i := by omega
        simp [show ¬ k - i = 0 by omega]
  have hold : (decide ((w &&& (1#32 <<< i).setWidth 64) ≠ 0)) = w.getLsbD i := by
    cases hw : w.getLsbD i with
    | true =>
      rw [decide_eq_true_iff]
      intro e
      have := congrArg (·.getLsbD i) e
      simp only [BitVec.getLsbD_and, hw, hm i (by omega)] at this
      simp at this
    | false =>
      rw [decide_eq_false_iff_not]
      intro hn; apply hn
      apply BitVec.eq_of_getLsbD_eq
      intro k hk
      rw [BitVec.getLsbD_and, hm k hk]
      by_cases e : k = i
      · subst e; simp [hw]
      · simp [e]
  refine ⟨⟨(w ||| (1#32 <<< i).setWidth 64) :: ws, if w.getLsbD i then c else c + 1⟩, ?_, rfl, ?_⟩
  · unfold Portable.setItem Portable.bitSet64
    simp only [if_true, show ¬ i ≥ 32 by omega, if_false]
    rw [hold]
  · intro j
    unfold getItem
    by_cases h0 : j / 64 = 0
    · have hj : j < 64 := by omega
      rw [h0]; simp only [List.getElem?_cons_zero, Option.map_some, BitVec.getLsbD_or, Nat.mod_eq_of_lt hj, hm j hj]
      by_cases e : j = i <;> simp [e]
    · have : j ≠ i := by omega
      rw [if_neg this]
      obtain ⟨k, hk⟩ : ∃ k, j / 64 = k + 1 := ⟨j / 64 - 1, by omega⟩
      rw [hk]; simp

#print axioms C24_history
#print axioms C24_portable_fails

end Verif.BitMap
