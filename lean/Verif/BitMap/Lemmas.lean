import Verif.BitMap.Model
namespace Verif.BitMap

/-- bit `j` of the array -/
def bit {W} (ws : List (BitVec W)) (j : Nat) : Bool := (ws[j / W]?.getD 0).getLsbD (j % W)

theorem getLsbD_mask {W : Nat} (r k : Nat) (hr : r < W) : ((1#W) <<< r).getLsbD k = decide (k = r) := by
  rw [BitVec.getLsbD_shiftLeft, BitVec.getLsbD_one]
  by_cases h : k = r
  · subst h; simp [hr]; omega
  · simp [h]; omega

theorem writeBit_spec {W} (hW : 0 < W) (ws : List (BitVec W)) (i : Nat) (v : Bool) (hi : i / W < ws.length) :
    ∃ ws', writeBit ws i v = some (ws', bit ws i) ∧ ws'.length = ws.length ∧
      ∀ j, bit ws' j = if j = i then v else bit ws j := by
  have hm : i % W < W := Nat.mod_lt _ hW
  have hwb : ws[i / W]? = some ws[i / W] := List.getElem?_eq_getElem hi
  refine ⟨ws.set (i / W) (if v then ws[i / W] ||| 1#W <<< (i % W) else ws[i / W] &&& ~~~(1#W <<< (i % W))),
    by simp only [writeBit, hwb, bit, Option.getD_some], by simp, ?_⟩
  intro j
  have hjm : j % W < W := Nat.mod_lt _ hW
  by_cases hd : j / W = i / W
  · have hji : j = i ↔ j % W = i % W := by
      constructor
      · intro h; rw [h]
      · intro h; rw [← Nat.div_add_mod j W, ← Nat.div_add_mod i W, h, hd]
    simp only [bit, hd, List.getElem?_set_self hi, Option.getD_some, hwb]
    cases v
    · simp only [Bool.false_eq_true, if_false, BitVec.getLsbD_and, BitVec.getLsbD_not, getLsbD_mask _ _ hm, hjm, decide_true, Bool.true_and]
      by_cases h : j % W = i % W <;> simp [h, hji]
    · simp only [if_true, BitVec.getLsbD_or, getLsbD_mask _ _ hm]
      by_cases h : j % W = i % W <;> simp [h, hji]
  · have hji : j ≠ i := fun h => hd (by rw [h])
    simp only [bit, hji, if_false]
    rw [List.getElem?_set_ne (fun h => hd h.symm)]

theorem bitFind_spec {W} (w : BitVec W) (i : Nat) :
    (∃ k, bitFind w i = (k : Nat) ∧ i ≤ k ∧ k < W ∧ w.getLsbD k = true ∧ ∀ j, i ≤ j → j < k → w.getLsbD j = false) ∨
    (bitFind w i = -1 ∧ ∀ j, i ≤ j → w.getLsbD j = false) := by
  unfold bitFind
  cases h : bitScanForward (w >>> i) with
  | some k =>
    left
    unfold bitScanForward at h
    rw [List.find?_range_eq_some] at h
    obtain ⟨h1, h2, h3⟩ := h
    simp at h1 h2 h3
    refine ⟨i + k, by simp, by omega, ?_, h1, ?_⟩
    · exact BitVec.lt_of_getLsbD h1
    · intro j hj1 hj2
      have := h3 (j - i) (by omega)
      rwa [show i + (j - i) = j by omega] at this
  | none =>
    right
    unfold bitScanForward at h
    rw [List.find?_eq_none] at h
    refine ⟨rfl, fun j hj => ?_⟩
    by_cases hlt : j < W
    · have := h (j - i) (by simp; omega)
      simp at this
      rwa [show i + (j - i) = j by omega] at this
    · exact BitVec.getLsbD_of_ge _ _ (by omega)

theorem toInt32_small {n : Nat} (h : n < 2147483648) : toInt32 (n : Int) = n := by
  unfold toInt32; omega

theorem toInt32_cast {k b W : Nat} (h : k + b * W < 2147483648) :
    toInt32 ((k : Int) + (b : Int) * (W : Int)) = ((k + b * W : Nat) : Int) := by
  rw [← Int.natCast_mul, ← Int.natCast_add]; exact toInt32_small h


/-- the least set bit in `[i, W * length)`, or nothing -/
def LeastFrom {W} (ws : List (BitVec W)) (i : Nat) (r : Int) : Prop :=
  (∃ k : Nat, r = k ∧ i ≤ k ∧ bit ws k = true ∧ ∀ j, i ≤ j → j < k → bit ws j = false) ∨
  (r = -1 ∧ ∀ j, i ≤ j → bit ws j = false)

theorem div_mod_split {W : Nat} (b k : Nat) (hk : k < W) : (k + b * W) / W = b ∧ (k + b * W) % W = k := by
  have hW : 0 < W := by omega
  constructor
  · rw [Nat.add_mul_div_right _ _ hW, Nat.div_eq_of_lt hk, Nat.zero_add]
  · rw [Nat.add_mul_mod_self_right, Nat.mod_eq_of_lt hk]

theorem bit_block {W} (ws : List (BitVec W)) (b k : Nat) (hk : k < W) :
    bit ws (k + b * W) = (ws[b]?.getD 0).getLsbD k := by
  obtain ⟨h1, h2⟩ := div_mod_split b k hk
  simp only [bit, h1, h2]

theorem findBlocks_spec {W} (hW : 0 < W) (ws rest : List (BitVec W)) (b : Nat) (hr : rest = ws.drop b)
    (hsize : ws.length * W ≤ 2147483648) :
    LeastFrom ws (b * W) (findBlocks rest b) := by
  induction rest generalizing b with
  | nil =>
    right
    refine ⟨rfl, fun j hj => ?_⟩
    have hb : ws.length ≤ b := by
      have := congrArg List.length hr; simp at this; omega
    have : ws.length ≤ j / W := by
      have : b ≤ j / W := (Nat.le_div_iff_mul_le hW).2 hj
      omega
    simp [bit, List.getElem?_eq_none this]
  | cons w rest ih =>
    have hb : b < ws.length := by
      have := congrArg List.length hr; simp at this; omega
    have hwb : ws[b]? = some w := by
      have := congrArg (·[0]?) hr; simp at this; exact this.symm
    have hrest : rest = ws.drop (b + 1) := by
      have := congrArg List.tail hr; simpa using this
    simp only [findBlocks]
    rcases bitFind_spec w 0 with ⟨k, hk, _, h2, h3, h4⟩ | ⟨hk, h2⟩
    · rw [hk]
      have hlt : k + b * W < 2147483648 := by
        have : (b+1) * W ≤ ws.length * W := Nat.mul_le_mul_right _ hb
        rw [Nat.add_mul] at this; omega
      have := toInt32_cast hlt
      simp only [ge_iff_le, Int.natCast_nonneg, if_true, this]
      left
      refine ⟨k + b * W, rfl, by omega, ?_, ?_⟩
      · rw [bit_block ws b k h2, hwb]; exact h3
      · intro j hj1 hj2
        have := h4 (j - b * W) (by omega) (by omega)
        rw [show j = (j - b * W) + b * W by omega, bit_block ws b _ (by omega), hwb]
        exact this
    · rw [hk]
      simp only [ge_iff_le, show ¬ ((0:Int) ≤ -1) by omega, if_false]
      have blk : ∀ j, b * W ≤ j → j < (b+1) * W → bit ws j = false := by
        intro j hj1 hj2
        rw [Nat.add_mul] at hj2
        rw [show j = (j - b * W) + b * W by omega, bit_block ws b _ (by omega), hwb]
        exact h2 _ (by omega)
      have hge : b * W ≤ (b+1) * W := Nat.mul_le_mul_right _ (by omega)
      rcases ih (b+1) hrest with ⟨k, q1, q2, q3, q4⟩ | ⟨q1, q2⟩
      · left
        refine ⟨k, q1, by omega, q3, fun j hj1 hj2 => ?_⟩
        by_cases hj : j < (b+1)*W
        · exact blk j hj1 hj
        · exact q4 j (by omega) hj2
      · right
        refine ⟨q1, fun j hj1 => ?_⟩
        by_cases hj : j < (b+1)*W
        · exact blk j hj1 hj
        · exact q2 j (by omega)

theorem find_spec {W} (hW : 0 < W) (uBits : Nat) (m : Map W) (i : Nat) (hi : i < uBits) (hlen : i / W < m.words.length)
    (hsize : m.words.length * W ≤ 2147483648) :
    ∃ r, find uBits m i = some r ∧ LeastFrom m.words i r := by
  have hni : ¬ uBits ≤ i := by omega
  simp only [find, hni, if_false]
  have hsplit : i % W + i / W * W = i := by rw [Nat.mul_comm]; exact Nat.mod_add_div i W
  have hm : i % W < W := Nat.mod_lt _ hW
  revert hsplit hm hlen
  generalize i % W = r
  generalize i / W = q
  intro hlen hsplit hm
  have hwb : m.words[q]? = some m.words[q] := List.getElem?_eq_getElem hlen
  simp only [hwb]
  have hge : q * W + W ≤ m.words.length * W := by
    have : (q+1) * W ≤ m.words.length * W := Nat.mul_le_mul_right _ hlen
    rw [Nat.add_mul] at this; omega
  have hq1 : (q + 1) * W = q * W + W := by rw [Nat.add_mul, Nat.one_mul]
  rcases bitFind_spec m.words[q] r with ⟨k, hk, h1, h2, h3, h4⟩ | ⟨hk, h2⟩
  · rw [hk]
    have hlt : k + q * W < 2147483648 := by omega
    rw [if_pos (Int.natCast_nonneg k), toInt32_cast hlt]
    refine ⟨_, rfl, .inl ⟨_, rfl, by omega, ?_, fun j hj1 hj2 => ?_⟩⟩
    · rw [bit_block _ _ k h2, hwb]; exact h3
    · have := h4 (j - q * W) (by omega) (by omega)
      rw [show j = (j - q * W) + q * W by omega, bit_block _ _ _ (by omega), hwb]
      exact this
  · rw [hk]
    rw [if_neg (by omega)]
    refine ⟨_, rfl, ?_⟩
    have blk : ∀ j, i ≤ j → j < (q+1) * W → bit m.words j = false := by
      intro j hj1 hj2
      rw [show j = (j - q * W) + q * W by omega, bit_block _ _ _ (by omega), hwb]
      exact h2 _ (by omega)
    rcases findBlocks_spec hW m.words _ (q + 1) rfl hsize with ⟨k, q1, q2, q3, q4⟩ | ⟨q1, q2⟩
    · left
      refine ⟨k, q1, by omega, q3, fun j hj1 hj2 => ?_⟩
      by_cases hj : j < (q+1)*W
      · exact blk j hj1 hj
      · exact q4 j (by omega) hj2
    · right
      refine ⟨q1, fun j hj1 => ?_⟩
      by_cases hj : j < (q+1)*W
      · exact blk j hj1 hj
      · exact q2 j (by omega)

end Verif.BitMap
