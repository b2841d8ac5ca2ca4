import Verif.Soo.Props

/-! C73: concrete histories, and what happens when sizes in bytes wrap. -/
namespace Verif.Soo
open Verif.Arr (Slot Ty Al)

/-- run calls, collecting the codes; `none`: undefined behaviour or abort -/
def exec {α : Type} (P : Par α) : St α → List (Op α) → Option (List (Option Hr) × St α)
  | s, [] => some ([], s)
  | s, op :: ops =>
    match step P s op with
    | .ub | .abort => none
    | .thr s' => (exec P s' ops).map fun r => (none :: r.1, r.2)
    | .ret hr s' => (exec P s' ops).map fun r => (some hr :: r.1, r.2)

/-- `Array<int64_t, AllocPolicy::SOO, 0>`: two elements fit in the object -/
def P8 : Par Nat := ⟨⟨true, 0⟩, 8, 0⟩
/-- a type with constructors -/
def N8 : Par Nat := ⟨⟨false, 0⟩, 8, 1⟩

theorem wf8 : P8.Wf := ⟨by decide, by decide⟩
theorem wfN8 : N8.Wf := ⟨by decide, by decide⟩

def show' {α : Type} (n : Nat) (r : Option (List (Option Hr) × St α)) : Option (List (Option Hr) × List (Option (List (Slot α) × Nat)) × List Bool) :=
  r.map fun r => (r.1, (List.range n).map (view r.2), (List.range n).map (isLarge r.2))

/-- two elements without memory, the third needs some; then moves from the large and the small form -/
example : show' 4 (exec P8 init [.new, .addN 0 (.ext [5, 6]) none, .addN 0 (.ext [7]) none, .addN 0 (.ext [7]) (some 2), .insert 0 1 9 (some 4), .moveNew 0, .addN 0 (.ext [4]) none, .moveNew 0, .copy 1 (some 8)]) =
    some ([some .ok, some .ok, some .oom, some .ok, some .ok, some .ok, some .ok, some .ok, some .ok],
      [some ([.val 4], 0), some ([.val 5, .val 9, .val 6, .val 7], 0), some ([.val 4], 0), some ([.val 5, .val 9, .val 6, .val 7], 0)], [false, true, false, true]) := rfl

/-- locks: the array may not be shortened or enlarged beyond its capacity, elements may be written -/
example : show' 1 (exec N8 init [.new, .lockSize 0 3 none, .write 0 1 8, .clear 0, .resize 0 1 none, .addN 0 (.ext [1]) (some 2), .unlock 0, .addN 0 (.ext [1]) (some 2), .remove 0 0 2 none, .unlock 0]) =
    some ([some .ok, some .ok, some .ok, none, none, some .oom, some .ok, some .ok, some .ok, none], [some ([.val 0, .val 1], 0)], [true]) := rfl

/-- the hypotheses of the theorems hold in a history with two arrays: one in its large form with a lock, one in its small form -/
theorem run_example : ∃ s, Run P8 [.new, .new, .addN 0 (.ext [5, 6, 7]) (some 2), .lockSize 0 4 (some 4)] s ∧ view s 0 = some ([.val 5, .val 6, .val 7, .val 0], 1) ∧ view s 1 = some ([], 0) ∧
    isLarge s 0 = true ∧ isLarge s 1 = false ∧ Valid P8 s (.addN 1 (.of 0 1 2) none) ∧ (step P8 s (.addN 1 (.of 0 1 2) none) = .ret .ok (put s 1 s.mem ⟨1, 2, .inside [.val 6, .val 7]⟩)) := by
  have r0 : Run P8 ([] ++ [.new]) _ := Run.ret (P := P8) .init trivial rfl
  have r1 := Run.ret (P := P8) (op := .new) r0 trivial rfl
  have r2 := Run.ret (P := P8) (op := .addN 0 (.ext [5, 6, 7]) (some 2)) r1 ⟨rfl, by unfold Fits; decide, fun q h => by cases h; exact ⟨rfl, .inl rfl⟩, trivial⟩ rfl
  have r3 := Run.ret (P := P8) (op := .lockSize 0 4 (some 4)) r2 ⟨rfl, by unfold Fits; decide, fun q h => by cases h; exact ⟨rfl, .inl rfl⟩⟩ rfl
  refine ⟨_, r3, rfl, rfl, rfl, rfl, ⟨rfl, by unfold Fits; decide, fun q h => (by cases h), by decide, _, rfl, by decide⟩, rfl⟩

theorem consL_beyond {α : Type} {T : Ty α} : ∀ (vs : List (Slot α)) (b : Arr.Buf α) (k : Nat), b.length < k + vs.length → k ≤ b.length → Arr.consL T b k vs = none
  | [], b, k, h, h' => by simp at h; omega
  | v :: vs, b, k, h, h' => by
    unfold Arr.consL
    cases hc : Arr.cons1 T b k v with
    | none => rfl
    | some b' =>
      have : b'.length = b.length ∧ k < b.length := by
        unfold Arr.cons1 at hc
        split at hc
        · cases hc
        · rename_i x hx
          have := (List.getElem?_eq_some_iff.1 hx).1
          split at hc
          · cases hc; exact ⟨by simp, this⟩
          · cases hc
      refine consL_beyond vs b' (k + 1) ?_ (by omega)
      rw [this.1]; simp at h; omega

theorem resize_ub {α : Type} (P : Par α) (N : Nat) (hN : up16 N = 0) (h0 : N ≠ 0) (hP : P.smallCap < N) (m : Heap α) (al : Al) : resize P m (fresh P) N al = .ub := by
  have hc : getCap P (fresh P) = some P.smallCap := by simp [getCap, fresh]
  have a : acquire P m (fresh P) N 0 al = .ret .ok m ⟨3, 0, .inside (List.replicate P.smallCap .raw)⟩ := by
    unfold acquire realloc
    rw [hc]; dsimp only
    rw [if_neg (by omega)]
    simp [fresh, getLocks, getBuf, lockObj]
  have b : edit m (⟨3, 0, .inside (List.replicate P.smallCap .raw)⟩ : Obj α) (Arr.sizeEdit P.T N) = none := by
    unfold edit getBuf Arr.sizeEdit
    dsimp only
    rw [if_pos (by decide)]; dsimp only
    rw [if_pos (Nat.zero_le _), consL_beyond _ _ _ (by simp; omega) (Nat.zero_le _)]
  unfold resize lockSize
  rw [if_neg h0, hN, a]; dsimp only
  have c : getLocks (⟨3, 0, .inside (List.replicate P.smallCap .raw)⟩ : Obj α) = some 1 := by simp [getLocks]
  rw [c]; dsimp only
  rw [if_neg (by omega), b]

/-- **C73 fails without the bound on sizes.** `Reserve(2^60)` of 16 byte elements asks for 2^64 bytes, which is 0 in `size_t`: with an allocator that returns a (zero-sized) block the call succeeds, `GetCapacity` is 2^60, and adding
an element then writes behind the block. `Resize(2^64 - 1)` of an empty array rounds up to 0 elements, so nothing is allocated, and construction runs behind the buffer inside the object, whatever the element type and the allocator. -/
theorem C73_overflow_fails :
    (let P : Par Nat := ⟨⟨true, 0⟩, 16, 0⟩
     ∃ s, exec P init [.new, .reserve 0 (2 ^ 60) (some 2)] = some ([some .ok, some .ok], s) ∧ cap P s 0 = 2 ^ 60 ∧ s.mem 2 = some [] ∧ step P s (.addN 0 (.ext [7]) none) = .ub) ∧
    (∀ (α : Type) (P : Par α), P.Wf → ∀ al : Al, ∃ s, step P init .new = .ret .ok s ∧ step P s (.resize 0 (2 ^ 64 - 1) al) = .ub) := by
  refine ⟨⟨_, rfl, rfl, rfl, rfl⟩, fun α P W al => ⟨_, rfl, ?_⟩⟩
  have e : up16 (2 ^ 64 - 1) = 0 := by decide
  have h : P.smallCap < 2 ^ 64 - 1 := by
    unfold Par.smallCap
    have := W.fit
    exact Nat.lt_of_le_of_lt (Nat.div_le_self _ _) (by omega)
  generalize 2 ^ 64 - 1 = N at *
  simp only [step, on, get, init, List.nil_append]
  simp only [List.length_cons, List.length_nil, Nat.zero_add, Nat.lt_add_one, getElem?_pos, List.getElem_cons_zero, Option.join_some]
  rw [resize_ub P N e (by omega) h]

end Verif.Soo
