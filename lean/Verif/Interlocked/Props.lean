import Verif.Interlocked.Model
/-!
# C34 – atomic bit operations
-/
namespace Verif.Interlocked

/-! ## Specification, bit by bit -/

/-- `w'` is `w` with bit `k` made `v` -/
def Written {n : Nat} (w w' : BitVec n) (k : Nat) (v : Bool) : Prop := ∀ j, j < n → w'.getLsbD j = if j = k then v else w.getLsbD j

/-- what one operation may do: old word, new word, result -/
def Effect {n : Nat} : Op n → BitVec n → BitVec n → Ret n → Prop
  | .bitSet k, w, w', r => Written w w' k true ∧ r = .bit (w.getLsbD k)
  | .bitReset k, w, w', r => Written w w' k false ∧ r = .bit (w.getLsbD k)
  | .increment, w, w', r => w'.toNat = (w.toNat + 1) % 2 ^ n ∧ r = .val w'
  | .decrement, w, w', r => (w'.toNat + 1) % 2 ^ n = w.toNat ∧ r = .val w'
  | .add a, w, w', r => w'.toNat = (w.toNat + a.toNat) % 2 ^ n ∧ r = .val w'
  | .sub a, w, w', r => (w'.toNat + a.toNat) % 2 ^ n = w.toNat ∧ r = .val w'
  | .bitOr m, w, w', r => (∀ j, j < n → w'.getLsbD j = (w.getLsbD j || m.getLsbD j)) ∧ r = .val w
  | .bitXor m, w, w', r => (∀ j, j < n → w'.getLsbD j = (w.getLsbD j ^^ m.getLsbD j)) ∧ r = .val w
  | .bitAnd m, w, w', r => (∀ j, j < n → w'.getLsbD j = (w.getLsbD j && m.getLsbD j)) ∧ r = .val w
  | .exchange v, w, w', r => w' = v ∧ r = .val w
  | .compareExchange e c, w, w', r => (w = c → w' = e) ∧ (w ≠ c → w' = w) ∧ r = .val w

/-- a sequential execution of the logged operations from `w` to `w'` -/
inductive Seq {n : Nat} (w : BitVec n) : List (Op n × Ret n) → BitVec n → Prop
  | nil : Seq w [] w
  | snoc {l a b op r} : Seq w l a → Effect op a b r → Seq w (l ++ [(op, r)]) b

/-! ## Sequential statements -/

theorem shl_one {n : Nat} (k j : Nat) (hj : j < n) : (1#n <<< k).getLsbD j = decide (j = k) := by
  rw [BitVec.getLsbD_shiftLeft, BitVec.getLsbD_one]
  by_cases h : j = k
  · subst h; simp; omega
  · by_cases h' : j < k
    · simp [h', h]
    · have : j - k ≠ 0 := by omega
      simp [this, h]

theorem msvcSet_written {n : Nat} (w : BitVec n) (k : Nat) : Written w (msvcSet w k).1 k true := by
  intro j hj
  simp only [msvcSet, BitVec.getLsbD_or, shl_one k j hj]
  by_cases h : j = k <;> simp [h]

theorem msvcReset_written {n : Nat} (w : BitVec n) (k : Nat) : Written w (msvcReset w k).1 k false := by
  intro j hj
  simp only [msvcReset, BitVec.getLsbD_and, BitVec.getLsbD_not, shl_one k j hj]
  by_cases h : j = k <;> simp [h, hj]

/-- testing `w & (1 << k)` is testing bit `k` -/
theorem and_one_ne {n : Nat} (w : BitVec n) (k : Nat) (hk : k < n) : decide (w &&& (1#n <<< k) ≠ 0) = w.getLsbD k := by
  cases h : w.getLsbD k with
  | true =>
    have : w &&& (1#n <<< k) ≠ 0 := by
      intro e
      have : (w &&& (1#n <<< k)).getLsbD k = false := by rw [e]; simp
      simp only [BitVec.getLsbD_and, shl_one k k hk, h] at this
      simp at this
    simp only [this, ne_eq, not_false_eq_true, decide_true]
  | false =>
    have : w &&& (1#n <<< k) = 0 := by
      apply BitVec.eq_of_getLsbD_eq
      intro j hj
      simp only [BitVec.getLsbD_and, shl_one k j hj]
      by_cases e : j = k
      · subst e; simp [h]
      · simp [e]
    simp [this]

theorem zext_one (k : Nat) (hk : k < 32) : (1#32 <<< k).zeroExtend 64 = 1#64 <<< k := by
  apply BitVec.eq_of_getLsbD_eq
  intro j hj
  rw [BitVec.getLsbD_setWidth, shl_one k j hj]
  by_cases h : j < 32
  · rw [shl_one k j h]; simp [hj]
  · rw [BitVec.getLsbD_of_ge _ _ (by omega)]
    have : j ≠ k := by omega
    simp [this]

/-- **C34, one word, all variants but one**: for every word and every bit inside it. -/
theorem C34_bit_partial :
    (∀ (n : Nat) (w : BitVec n) k, Written w (msvcSet w k).1 k true ∧ (msvcSet w k).2 = w.getLsbD k) ∧
    (∀ (n : Nat) (w : BitVec n) k, Written w (msvcReset w k).1 k false ∧ (msvcReset w k).2 = w.getLsbD k) ∧
    (∀ (w : BitVec 32) k, k < 32 → ∃ w', portSet32 w k = some (w', w.getLsbD k) ∧ Written w w' k true) ∧
    (∀ (w : BitVec 32) k, k < 32 → ∃ w', portReset32 w k = some (w', w.getLsbD k) ∧ Written w w' k false) ∧
    (∀ (w : BitVec 64) k, k < 32 → ∃ w', portSet64 w k = some (w', w.getLsbD k) ∧ Written w w' k true) := by
  refine ⟨fun n w k => ⟨msvcSet_written w k, rfl⟩, fun n w k => ⟨msvcReset_written w k, rfl⟩, fun w k hk => ?_, fun w k hk => ?_, fun w k hk => ?_⟩
  · exact ⟨_, by simp only [portSet32, hk, if_true]; rw [and_one_ne w k hk]; rfl, msvcSet_written w k⟩
  · exact ⟨_, by simp only [portReset32, hk, if_true]; rw [and_one_ne w k hk]; rfl, msvcReset_written w k⟩
  · exact ⟨_, by simp only [portSet64, hk, if_true]; rw [zext_one k hk, and_one_ne w k (by omega)]; rfl, msvcSet_written w k⟩

/-- The portable 64-bit operations: bits from 32 on are undefined behaviour, and `BitReset` clears the whole upper half. -/
theorem C34_portable64_fails :
    (∀ w k, 32 ≤ k → portSet64 w k = none ∧ portReset64 w k = none) ∧
    (∀ w k w' b, portReset64 w k = some (w', b) → ∀ j, 32 ≤ j → w'.getLsbD j = false) := by
  refine ⟨fun w k hk => ?_, fun w k w' b h j hj => ?_⟩
  · have : ¬ k < 32 := by omega
    simp [portSet64, portReset64, this]
  · simp only [portReset64] at h
    split at h
    · simp only [Option.some.injEq, Prod.mk.injEq] at h
      obtain ⟨h, -⟩ := h
      rw [← h, BitVec.getLsbD_and, BitVec.getLsbD_setWidth]
      rw [BitVec.getLsbD_of_ge (~~~(1#32 <<< k)) j (by omega)]
      simp
    · cases h

/-- so resetting bit 0 of 2^32 loses bit 32 -/
example : portReset64 4294967296#64 0 = some (0#64, false) := by decide

/-- `BitReset(int32_t*)` never returns. -/
theorem C34_resetInt32_diverges (w : BitVec 32) (k : Nat) : ¬ ∃ r, ResetI32 w k r := by
  rintro ⟨r, h⟩
  induction h with
  | call _ ih => exact ih

theorem sub_effect {n : Nat} (w a : BitVec n) : ((sub w a).1.toNat + a.toNat) % 2 ^ n = w.toNat := by
  have e : (sub w a).1 = w - a := by
    simp only [sub, add]
    rw [← BitVec.neg_eq_not_add, BitVec.sub_eq_add_neg]
  have : (w - a) + a = w := BitVec.sub_add_cancel w a
  rw [e, ← BitVec.toNat_add, this]

/-- Signed subtraction is right unless the subtrahend is the least integer, where it is undefined. -/
theorem C34_subSigned {n : Nat} (hn : 0 < n) (w a : BitVec n) :
    (a.toInt ≠ -2 ^ (n - 1) → ∃ v, subSigned w a = some (v, v) ∧ v = w - a) ∧ (a.toInt = -2 ^ (n - 1) → subSigned w a = none) := by
  have hnot : (~~~a).toInt = - a.toInt - 1 := by
    have h2 : (2 : Nat) ^ n = 2 * 2 ^ (n - 1) := by rw [← Nat.pow_succ']; congr 1; omega
    have hlt := a.isLt
    rw [BitVec.toInt_eq_toNat_cond, BitVec.toInt_eq_toNat_cond, BitVec.toNat_not]
    generalize 2 ^ n = N at *
    generalize 2 ^ (n - 1) = M at *
    split <;> split <;> omega
  have hb : -(2 : Int) ^ (n - 1) ≤ a.toInt := BitVec.le_toInt a
  refine ⟨fun h => ?_, fun h => ?_⟩
  · refine ⟨w - a, ?_, rfl⟩
    have : (~~~a).toInt + 1 < 2 ^ (n - 1) := by rw [hnot]; omega
    simp only [subSigned, this, if_true, add]
    rw [← BitVec.neg_eq_not_add, BitVec.sub_eq_add_neg]
  · have : ¬ (~~~a).toInt + 1 < 2 ^ (n - 1) := by rw [hnot]; omega
    simp only [subSigned, this, if_false]

/-! ## All interleavings -/

theorem single_effect {n : Nat} {op : Op n} {w w' : BitVec n} {r : Ret n} (h : op.single w = some (w', r)) : Effect op w w' r := by
  cases op with
  | bitSet k => simp [Op.single] at h; obtain ⟨rfl, rfl⟩ := h; exact ⟨msvcSet_written w k, rfl⟩
  | bitReset k => simp [Op.single] at h; obtain ⟨rfl, rfl⟩ := h; exact ⟨msvcReset_written w k, rfl⟩
  | increment =>
    simp [Op.single] at h; obtain ⟨rfl, rfl⟩ := h
    exact ⟨by simp [Interlocked.add, BitVec.toNat_add], rfl⟩
  | decrement =>
    simp [Op.single] at h; obtain ⟨rfl, rfl⟩ := h
    refine ⟨?_, rfl⟩
    have : (Interlocked.add w (-1#n)).1 + 1#n = w := by
      simp only [Interlocked.add]; rw [← BitVec.sub_eq_add_neg, BitVec.sub_add_cancel]
    have h2 := congrArg BitVec.toNat this
    rw [BitVec.toNat_add] at h2
    simpa using h2
  | add a => simp [Op.single] at h; obtain ⟨rfl, rfl⟩ := h; exact ⟨by simp [Interlocked.add, BitVec.toNat_add], rfl⟩
  | sub a => simp [Op.single] at h; obtain ⟨rfl, rfl⟩ := h; exact ⟨sub_effect w a, rfl⟩
  | bitOr m => simp [Op.single] at h
  | bitXor m => simp [Op.single] at h
  | bitAnd m => simp [Op.single] at h
  | exchange v => simp [Op.single] at h; obtain ⟨rfl, rfl⟩ := h; exact ⟨rfl, rfl⟩
  | compareExchange e c =>
    simp [Op.single] at h; obtain ⟨rfl, rfl⟩ := h
    exact ⟨fun h => by simp [cmpxchg, h], fun h => by simp [cmpxchg, h], rfl⟩

theorem loop_effect {n : Nat} {op : Op n} (w : BitVec n) (h : op.isLoop = true) : Effect op w (op.next w) (.val w) := by
  cases op <;> simp [Op.isLoop] at h <;> refine ⟨fun j _ => ?_, rfl⟩ <;> simp [Op.next]

theorem step_inv {n : Nat} {w0 : BitVec n} {s t : St n} (hs : Step s t) (h : Seq w0 s.log s.mem)
    (hl : ∀ (i : Nat) op v, s.threads[i]? = some (.loop op v) → op.isLoop = true) :
    Seq w0 t.log t.mem ∧ ∀ (i : Nat) op v, t.threads[i]? = some (.loop op v) → op.isLoop = true := by
  have hset : ∀ (i : Nat) (p : PC n), (∀ op v, p = .loop op v → op.isLoop = true) →
      ∀ (j : Nat) op v, (s.threads.set i p)[j]? = some (.loop op v) → op.isLoop = true := by
    intro i p hp j op v hj
    rw [List.getElem?_set] at hj
    split at hj
    · split at hj
      · simp at hj; exact hp op v hj
      · cases hj
    · exact hl j op v hj
  cases hs with
  | single h1 h2 => exact ⟨.snoc h (single_effect h2), hl⟩
  | start h1 h2 => exact ⟨h, hset _ _ (fun op v e => by cases e; exact h2)⟩
  | casOk h1 h2 => subst h2; exact ⟨.snoc h (loop_effect _ (hl _ _ _ h1)), hset _ _ (fun op v e => by cases e)⟩
  | casFail h1 h2 => exact ⟨h, hset _ _ (fun op v e => by cases e; exact hl _ _ _ h1)⟩

/-- **C34 under concurrency.** However many threads call any mix of the interlocked operations on one word, in every interleaving the finished
operations form a sequential execution, in the order in which they took effect, from the initial to the current word: each one changes
exactly what it promises and returns the value (or bit) it found at that moment.  No update is lost. -/
theorem C34_linearizable {n : Nat} (w0 : BitVec n) (k : Nat) {s : St n} (h : Reach ⟨w0, List.replicate k .idle, []⟩ s) :
    Seq w0 s.log s.mem := by
  suffices hh : Seq w0 s.log s.mem ∧ ∀ (i : Nat) op v, s.threads[i]? = some (.loop op v) → op.isLoop = true from hh.1
  induction h with
  | refl => exact ⟨.nil, fun i op v h => by simp [List.getElem?_replicate] at h⟩
  | step _ hs ih => exact step_inv hs ih.1 ih.2

/-- Consequence: if only `BitSet` calls happened, a set bit was either set initially or some call set it, and it is never lost. -/
theorem C34_only_sets {n : Nat} (w0 : BitVec n) {l : List (Op n × Ret n)} {w : BitVec n} (h : Seq w0 l w)
    (hl : ∀ e ∈ l, ∃ k, e.1 = .bitSet k) (j : Nat) (hj : j < n) :
    w.getLsbD j = true ↔ w0.getLsbD j = true ∨ ∃ r, (Op.bitSet j, r) ∈ l := by
  induction h with
  | nil => simp
  | @snoc l a b op r hseq he ih =>
    have ih := ih (fun e he => hl e (by simp [he]))
    obtain ⟨k, hk⟩ := hl (op, r) (by simp)
    simp only at hk
    subst hk
    rw [he.1 j hj]
    by_cases e : j = k
    · subst e
      simp
    · rw [if_neg e, ih]
      constructor
      · rintro (h | ⟨r', h⟩)
        · exact .inl h
        · exact .inr ⟨r', by simp [h]⟩
      · rintro (h | ⟨r', h⟩)
        · exact .inl h
        · simp [e] at h
          exact .inr ⟨r', h⟩

/-- Exactly one of several concurrent `BitSet` calls on a clear bit gets `false` (used as a lock): in every sequential execution of
`BitSet k` calls from a word with bit `k` clear, the first result is `false` and all later ones are `true`. -/
theorem C34_one_winner {n : Nat} (w0 : BitVec n) (k : Nat) (hk : k < n) (h0 : w0.getLsbD k = false) {l : List (Op n × Ret n)} {w : BitVec n}
    (h : Seq w0 l w) (hl : ∀ e ∈ l, e.1 = .bitSet k) :
    (l = [] ∧ w.getLsbD k = false) ∨ (∃ t, l = (.bitSet k, .bit false) :: t ∧ ∀ e ∈ t, e = (.bitSet k, .bit true)) ∧ w.getLsbD k = true := by
  induction h with
  | nil => exact .inl ⟨rfl, h0⟩
  | @snoc l a b op r hseq he ih =>
    have ih := ih (fun e he => hl e (by simp [he]))
    have hop : op = .bitSet k := hl (op, r) (by simp)
    subst hop
    right
    refine ⟨?_, by rw [he.1 k hk]; simp⟩
    rcases ih with ⟨rfl, ha⟩ | ⟨⟨t, rfl, ht⟩, ha⟩
    · exact ⟨[], by rw [he.2, ha]; rfl, by simp⟩
    · refine ⟨t ++ [(.bitSet k, .bit true)], by rw [he.2, ha]; rfl, fun e hm => ?_⟩
      simp at hm
      rcases hm with hm | hm
      · exact ht e hm
      · exact hm

/-- Handing over by `Exchange` (handles, lists, result pointers): if only exchanges happened, every value that was ever in the word or given to a call came out of exactly one call or is still there, in order. -/
theorem C34_exchange {n : Nat} (w0 : BitVec n) {l : List (Op n × Ret n)} {w : BitVec n} (h : Seq w0 l w) (g : List (BitVec n)) (hl : l.map Prod.fst = g.map .exchange) :
    ∃ r : List (BitVec n), l.map Prod.snd = r.map .val ∧ w0 :: g = r ++ [w] := by
  induction h generalizing g with
  | nil =>
    cases g with
    | nil => exact ⟨[], rfl, rfl⟩
    | cons a g => cases hl
  | @snoc l a b op x hseq he ih =>
    rw [List.map_append] at hl
    obtain ⟨g1, g2, rfl, h1, h2⟩ := List.append_eq_map_iff.1 hl
    obtain ⟨r, hr, e⟩ := ih g1 h1.symm
    cases g2 with
    | nil => cases h2
    | cons v g3 =>
      cases g3 with
      | cons _ _ => cases h2
      | nil =>
        have hv : op = .exchange v := by simpa using h2.symm
        subst hv
        obtain ⟨rfl, rfl⟩ := he
        exact ⟨r ++ [a], by simp [hr], by rw [← List.cons_append, e]⟩

/-- Claiming by `CompareExchange` (states that are left once, as the result of a task): of all calls that compare with `c` and store something else, exactly the first one finds `c`. -/
theorem C34_claim {n : Nat} (c : BitVec n) {l : List (Op n × Ret n)} {w : BitVec n} (h : Seq c l w) (hl : ∀ x ∈ l, ∃ e, e ≠ c ∧ x.1 = .compareExchange e c) :
    (l = [] ∧ w = c) ∨ ∃ e t, l = (.compareExchange e c, .val c) :: t ∧ w = e ∧ w ≠ c ∧ ∀ x ∈ t, x.2 = .val e := by
  induction h with
  | nil => exact .inl ⟨rfl, rfl⟩
  | @snoc l a b op r hseq he ih =>
    have ih := ih (fun x hx => hl x (by simp [hx]))
    obtain ⟨e, hne, hop⟩ := hl (op, r) (by simp)
    simp only at hop
    subst hop
    obtain ⟨h1, h2, rfl⟩ := he
    right
    rcases ih with ⟨rfl, rfl⟩ | ⟨e', t, rfl, rfl, hac, ht⟩
    · exact ⟨e, [], rfl, h1 rfl, by rw [h1 rfl]; exact hne, by simp⟩
    · have hb := h2 hac
      refine ⟨a, t ++ [(.compareExchange e c, .val a)], rfl, hb, by rw [hb]; exact hac, fun x hx => ?_⟩
      simp at hx
      rcases hx with hx | hx
      · exact ht x hx
      · rw [hx]

/-- `CompareExchangeTwoPoints`, both variants: the two words are compared and replaced together, the comparand gets what was found. -/
theorem C34_two_points {n : Nat} (d e c : BitVec n × BitVec n) :
    (twoPoints64 d e c = if d = c then (e, c, true) else (d, d, false)) ∧ twoPoints32 d e c = twoPoints64 d e c := by
  have lo : ∀ a b : BitVec n, (a ++ b).extractLsb' 0 n = b := by
    intro a b
    apply BitVec.eq_of_getLsbD_eq
    intro j hj
    rw [BitVec.getLsbD_extractLsb', BitVec.getLsbD_append]
    simp [hj]
  have hi : ∀ a b : BitVec n, (a ++ b).extractLsb' n n = a := by
    intro a b
    apply BitVec.eq_of_getLsbD_eq
    intro j hj
    rw [BitVec.getLsbD_extractLsb', BitVec.getLsbD_append]
    simp [hj]
  have inj : ∀ x y : BitVec n × BitVec n, x.2 ++ x.1 = y.2 ++ y.1 ↔ x = y := by
    intro x y
    constructor
    · intro h
      have h1 := congrArg (BitVec.extractLsb' 0 n) h
      have h2 := congrArg (BitVec.extractLsb' n n) h
      rw [lo, lo] at h1
      rw [hi, hi] at h2
      exact Prod.ext h1 h2
    · intro h; rw [h]
  refine ⟨?_, ?_⟩
  · unfold twoPoints64
    by_cases h : d = c
    · simp [h]
    · simp [h]
  · unfold twoPoints32 twoPoints64 cmpxchg
    by_cases h : d = c
    · subst h; simp [lo, hi]
    · have : d.2 ++ d.1 ≠ c.2 ++ c.1 := fun e => h ((inj _ _).1 e)
      simp [h, this, lo, hi]

/-- Every overload of `BitSet` ends up in the implementation for its own width, so does every overload of `BitReset` – except the two for `int32_t`, which call themselves for ever. -/
theorem C34_overloads (o : Ov) : Ends setCalls o ⟨true, false, o.wide⟩ ∧ ((∃ p, Ends resetCalls o p) ↔ ¬ (o.signed = true ∧ o.wide = false))
    ∧ ∀ p, Ends resetCalls o p → p = ⟨true, false, o.wide⟩ := by
  have stuck : ∀ o p, Ends resetCalls o p → resetCalls o ≠ some o := by
    intro o p h
    induction h with
    | here h => rw [h]; simp
    | call h _ ih => intro e; rw [h] at e; cases e; exact ih h
  have fin : ∀ o p, Ends resetCalls o p → p = ⟨true, false, o.wide⟩ := by
    intro o p h
    induction h with
    | @here o h => rcases o with ⟨v, s, w⟩; cases v <;> cases s <;> cases w <;> simp [resetCalls] at h ⊢
    | @call o o' p h _ ih =>
      rw [ih]
      rcases o with ⟨v, s, w⟩
      cases v <;> cases s <;> cases w <;> simp [resetCalls] at h <;> subst h <;> rfl
  refine ⟨?_, ⟨?_, ?_⟩, fin o⟩
  · rcases o with ⟨v, s, w⟩
    cases v <;> cases s
    · exact .call rfl (.here rfl)
    · exact .call rfl (.call rfl (.here rfl))
    · exact .here rfl
    · exact .call rfl (.here rfl)
  · rintro ⟨p, hp⟩ ⟨h1, h2⟩
    rcases o with ⟨v, s, w⟩
    simp only at h1 h2
    subst h1 h2
    exact stuck _ _ hp (by cases v <;> rfl)
  · intro h
    refine ⟨⟨true, false, o.wide⟩, ?_⟩
    rcases o with ⟨v, s, w⟩
    cases v <;> cases s <;> cases w
    · exact .call rfl (.here rfl)
    · exact .call rfl (.here rfl)
    · exact absurd ⟨rfl, rfl⟩ h
    · exact .call rfl (.call rfl (.here rfl))
    · exact .here rfl
    · exact .here rfl
    · exact absurd ⟨rfl, rfl⟩ h
    · exact .call rfl (.here rfl)

/-- two exchanges: the initial value and the first one given come out, the second stays -/
example : Seq 7#64 [(.exchange 3#64, .val 7#64), (.exchange 0#64, .val 3#64)] 0#64 :=
  .snoc (l := [(.exchange 3#64, .val 7#64)]) (.snoc .nil ⟨rfl, rfl⟩) ⟨rfl, rfl⟩

/-- two claims: the second finds the value of the first -/
example : Seq 0#32 [(.compareExchange 1#32 0#32, .val 0#32), (.compareExchange 2#32 0#32, .val 1#32)] 1#32 :=
  .snoc (l := [(.compareExchange 1#32 0#32, .val 0#32)]) (.snoc .nil ⟨fun _ => rfl, fun h => absurd rfl h, rfl⟩) ⟨fun h => absurd h (by decide), fun _ => rfl, rfl⟩

/-- equal second words are not enough -/
example : twoPoints32 (1#32, 5#32) (2#32, 6#32) (3#32, 5#32) = ((1#32, 5#32), (1#32, 5#32), false) ∧
    twoPoints32 (1#32, 5#32) (2#32, 6#32) (1#32, 5#32) = ((2#32, 6#32), (1#32, 5#32), true) := by decide

/-- two threads, `BitOr 1` failing its first exchange because of a `BitSet 1` in between -/
example : ∃ s : St 32, Reach ⟨0#32, List.replicate 2 .idle, []⟩ s ∧ s.mem = 3#32 ∧
    s.log = [(.bitSet 1, .bit false), (.bitOr 1#32, .val 2#32)] := by
  refine ⟨_, .step (.step (.step (.step .refl (.start (i := 0) (op := .bitOr 1#32) rfl rfl)) (.single (i := 1) (op := .bitSet 1) rfl rfl))
    (.casFail (i := 0) (op := .bitOr 1#32) (last := 0#32) rfl (by decide))) (.casOk (i := 0) (op := .bitOr 1#32) (last := 2#32) rfl (by decide)), by decide, rfl⟩

#print axioms C34_bit_partial
#print axioms C34_portable64_fails
#print axioms C34_linearizable
#print axioms C34_subSigned
#print axioms C34_exchange
#print axioms C34_claim
#print axioms C34_two_points
#print axioms C34_overloads

end Verif.Interlocked
