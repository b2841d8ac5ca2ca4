import Verif.Arr.Claims

/-! Concrete histories: a computable check of the preconditions (`execB`), the negations of the claims that the code violates, and histories that meet the hypotheses of the theorems. -/

namespace Verif.Arr

variable {α : Type}

def liveB (s : St α) (i : Nat) : Bool := match s.hs[i]? with | some (some _) => true | _ => false
def alB (s : St α) (al : Al) : Bool := match al with | none => true | some q => q != 0 && (s.mem q).isNone
def lockedB (s : St α) (i : Nat) : Bool := match blk s i with | some d => decide d.isLocked | none => false
def srcB (s : St α) (i : Nat) : Src α → Bool
  | .ext _ => true
  | .of h off n => h != i && (match blk s h with | some d => decide (off + n ≤ d.size) | none => false)
def itemB (s : St α) : Src1 α → Bool
  | .ext _ => true
  | .of h off => match blk s h with | some d => decide (off < d.size) | none => false
def foreignB (i : Nat) : Src1 α → Bool
  | .ext _ => true
  | .of h _ => h != i

/-- a sufficient, computable form of `Valid` -/
def okB (s : St α) : Op α → Bool
  | .new => true
  | .copy j al => liveB s j && alB s al
  | .moveNew j => liveB s j && !lockedB s j
  | .del i => liveB s i
  | .clear i => liveB s i
  | .setArr i src al => liveB s i && (alB s al && srcB s i src)
  | .assign i j al => liveB s i && (liveB s j && (alB s al && !lockedB s i))
  | .moveAssign i j => liveB s i && (liveB s j && (!lockedB s i && !lockedB s j))
  | .reserve i _ al => liveB s i && alB s al
  | .resize i _ al => liveB s i && alB s al
  | .lock i _ al => liveB s i && alB s al
  | .unlock i => liveB s i
  | .write _ _ _ => false
  | .setItem i _ v al => liveB s i && (alB s al && itemB s v)
  | .add i _ al => liveB s i && alB s al
  | .addN i src al => liveB s i && (alB s al && srcB s i src)
  | .insert i _ v al => liveB s i && (alB s al && (itemB s v && foreignB i v))
  | .remove i _ _ al => liveB s i && alB s al

theorem live_of_B {s : St α} {i} (h : liveB s i = true) : Live s i := by
  unfold liveB at h; unfold Live
  split at h
  · rename_i a e; exact ⟨a, e⟩
  · cases h

theorem al_of_B {s : St α} {al} (h : alB s al = true) : ∀ q, al = some q → q ≠ 0 ∧ s.mem q = none := by
  rintro q rfl
  simp only [alB, Bool.and_eq_true, bne_iff_ne, Option.isNone_iff_eq_none] at h
  exact h

theorem alOk_of_B {T : Ty α} {s : St α} {i al} (h : alB s al = true) : AlOk T s i al := fun q e => ⟨(al_of_B h q e).1, .inl (al_of_B h q e).2⟩

theorem not_locked_of_B {s : St α} {i} (h : (!lockedB s i) = true) : ¬ IsLocked s i := by
  rintro ⟨d, hd, hl⟩
  simp only [lockedB, hd, hl, decide_true] at h
  cases h

theorem src_of_B {s : St α} {i src} (h : srcB s i src = true) : SrcValid s i src := by
  cases src with
  | ext l => trivial
  | of a b c =>
    simp only [srcB, Bool.and_eq_true, bne_iff_ne] at h
    refine ⟨?_, .inl h.1⟩
    cases e : blk s a with
    | none => rw [e] at h; cases h.2
    | some d => rw [e] at h; exact ⟨d, rfl, of_decide_eq_true h.2⟩

theorem item_of_B {s : St α} {v} (h : itemB s v = true) : ItemExists s v := by
  cases v with
  | ext l => trivial
  | of a b =>
    simp only [itemB] at h
    cases e : blk s a with
    | none => rw [e] at h; cases h
    | some d => rw [e] at h; exact ⟨d, e, of_decide_eq_true h⟩

theorem foreign_of_B {s : St α} {i v} (h : foreignB i v = true) : ItemForeign s i v := by
  cases v with
  | ext l => trivial
  | of a b => simp only [foreignB, bne_iff_ne] at h; exact .inl h

theorem valid_of_B {T : Ty α} {s : St α} {op} (h : okB s op = true) : Valid T s op := by
  cases op <;> simp only [okB, Bool.and_eq_true] at h <;> simp only [Valid] <;>
    first
    | exact live_of_B h
    | exact ⟨live_of_B h.1, alOk_of_B h.2⟩
    | exact ⟨live_of_B h.1, al_of_B h.2⟩
    | exact ⟨live_of_B h.1, alOk_of_B h.2.1, src_of_B h.2.2⟩
    | exact ⟨live_of_B h.1, alOk_of_B h.2.1, item_of_B h.2.2⟩
    | exact ⟨live_of_B h.1, alOk_of_B h.2.1, item_of_B h.2.2.1, foreign_of_B h.2.2.2⟩
    | exact ⟨live_of_B h.1, not_locked_of_B h.2⟩
    | exact ⟨live_of_B h.1, live_of_B h.2.1, alOk_of_B h.2.2.1, fun h' => absurd h' (not_locked_of_B h.2.2.2)⟩
    | exact ⟨live_of_B h.1, live_of_B h.2.1, not_locked_of_B h.2.2.1, not_locked_of_B h.2.2.2⟩
    | cases h

def execB (T : Ty α) : St α → List (Op α) → Option (St α)
  | s, [] => some s
  | s, op :: ops =>
    if okB s op && decide (s.hs.length < 100) then
      match (step T s op).st with
      | some s' => execB T s' ops
      | none => none
    else none

theorem run_of_B {T : Ty α} {ops} : ∀ {s s'}, execB T s ops = some s' → Run T s ops s' := by
  induction ops with
  | nil => intro s s' h; simp only [execB, Option.some.injEq] at h; subst h; exact .nil _
  | cons op ops ih =>
    intro s s' h
    simp only [execB] at h
    split at h
    · rename_i hc
      simp only [Bool.and_eq_true, decide_eq_true_eq] at hc
      split at h
      · rename_i s1 e
        exact .cons (valid_of_B hc.1) (by unfold Few imax; omega) e (ih h)
      · cases h
    · cases h

/-- every history accepted by `execB` whose final state passes a computable test -/
theorem witness {T : Ty α} {ops} (P : St α → Bool) (h : (execB T init ops).any P = true) : ∃ s, Run T init ops s ∧ P s = true := by
  cases e : execB T init ops with
  | none => rw [e] at h; cases h
  | some s => rw [e] at h; exact ⟨s, run_of_B e, h⟩

/-- elements, capacity and reference count of a handle -/
def seen (s : St Nat) (i : Nat) : Option (List (Slot Nat) × Nat × Int) := (blk s i).map fun d => (d.content, d.buf.length, d.iRef)

/-- the state after a call -/
def after (T : Ty Nat) (s : St Nat) (op : Op Nat) : Option (St Nat) := (step T s op).st

def isUb : Out Nat → Bool | .ub => true | _ => false
def isThr : Out Nat → Bool | .thr _ => true | _ => false
def isAbort : Out Nat → Bool | .abort => true | _ => false
def isOk : Out Nat → Bool | .ret .ok _ => true | _ => false

/-- `Array<int>` -/
def int : Ty Nat := ⟨true, 0⟩
/-- `Array<String>` and the like -/
def obj : Ty Nat := ⟨false, 0⟩

/-- the values as slots -/
def vs (l : List Nat) : List (Slot Nat) := l.map .val

/-- `[1,2,3]` and a copy that shares its storage -/
def abc2 : List (Op Nat) := [.new, .setArr 0 (.ext [1, 2, 3]) (some 1), .copy 0 none]

/-- the hypotheses of C18–C20 are met: two handles, one block, two owners -/
theorem abc2_run : ∃ s, Run int init abc2 s ∧ seen s 0 = some (vs [1, 2, 3], 16, 2) ∧ seen s 1 = some (vs [1, 2, 3], 16, 2) := by
  obtain ⟨s, r, h⟩ := witness (T := int) (ops := abc2)
    (fun s => decide (seen s 0 = some (vs [1, 2, 3], 16, 2) ∧ seen s 1 = some (vs [1, 2, 3], 16, 2))) (by decide +kernel)
  exact ⟨s, r, of_decide_eq_true h⟩

/-- changes through the copy leave the original alone; inserting from the other array, removing, resizing and an index out of range behave as for lists -/
theorem abc2_ops : ∃ s, Run int init (abc2 ++ [.insert 1 1 (.of 0 2) (some 2), .remove 1 0 1 none, .setItem 1 0 (.of 1 2) none, .resize 1 5 none, .insert 1 9 (.ext 7) none, .add 1 8 none]) s ∧
    seen s 0 = some (vs [1, 2, 3], 16, 1) ∧ seen s 1 = some (vs [3, 2, 3, 0, 0, 8], 16, 1) := by
  obtain ⟨s, r, h⟩ := witness (T := int) (ops := abc2 ++ [.insert 1 1 (.of 0 2) (some 2), .remove 1 0 1 none, .setItem 1 0 (.of 1 2) none, .resize 1 5 none, .insert 1 9 (.ext 7) none, .add 1 8 none])
    (fun s => decide (seen s 0 = some (vs [1, 2, 3], 16, 1) ∧ seen s 1 = some (vs [3, 2, 3, 0, 0, 8], 16, 1))) (by decide +kernel)
  exact ⟨s, r, of_decide_eq_true h⟩

/-- a history with an array that is locked (hypotheses of `C20_locked_stays`) -/
theorem locked_run : ∃ s, Run int init (abc2 ++ [.lock 1 3 (some 2), .lock 1 4 none]) s ∧ seen s 0 = some (vs [1, 2, 3], 16, 1) ∧ seen s 1 = some (vs [1, 2, 3, 0], 16, -2) := by
  obtain ⟨s, r, h⟩ := witness (T := int) (ops := abc2 ++ [.lock 1 3 (some 2), .lock 1 4 none])
    (fun s => decide (seen s 0 = some (vs [1, 2, 3], 16, 1) ∧ seen s 1 = some (vs [1, 2, 3, 0], 16, -2))) (by decide +kernel)
  exact ⟨s, r, of_decide_eq_true h⟩

/-- after all handles are gone so are the blocks (hypotheses of `C20_no_leak_partial`) -/
theorem all_gone : ∃ s, Run obj init (abc2 ++ [.insert 1 1 (.of 0 2) (some 2), .del 0, .del 1]) s ∧ s.hs = [none, none] ∧ (s.mem 1).isNone ∧ (s.mem 2).isNone := by
  obtain ⟨s, r, h⟩ := witness (T := obj) (ops := abc2 ++ [.insert 1 1 (.of 0 2) (some 2), .del 0, .del 1])
    (fun s => decide (s.hs = [none, none] ∧ (s.mem 1).isNone ∧ (s.mem 2).isNone)) (by decide +kernel)
  exact ⟨s, r, of_decide_eq_true h⟩

/-! ### C19 in concrete cases -/

/-- hypotheses of `C19_list_ops_partial`: strings, inserting before the last two elements and removing the first two of four -/
theorem obj_smooth : ∃ s, Run obj init [.new, .setArr 0 (.ext [1, 2, 3]) (some 1), .insert 0 1 (.ext 9) none, .remove 0 0 2 none] s ∧ seen s 0 = some (vs [2, 3], 16, 1) := by
  obtain ⟨s, r, h⟩ := witness (T := obj) (ops := [.new, .setArr 0 (.ext [1, 2, 3]) (some 1), .insert 0 1 (.ext 9) none, .remove 0 0 2 none])
    (fun s => decide (seen s 0 = some (vs [2, 3], 16, 1))) (by decide +kernel)
  exact ⟨s, r, of_decide_eq_true h⟩

/-- `Insert(0, x)` into `[1,2,3,4]` of strings: instead of `[9,1,2,3,4]` it gives `[9, moved, moved, 1, 4]`: 2 and 3 are lost -/
theorem C19_insert_concrete_fails : ∃ s, Run obj init [.new, .setArr 0 (.ext [1, 2, 3, 4]) (some 1), .insert 0 0 (.ext 9) none] s ∧
    seen s 0 = some ([.val 9, .moved, .moved, .val 1, .val 4], 16, 1) := by
  obtain ⟨s, r, h⟩ := witness (T := obj) (ops := [.new, .setArr 0 (.ext [1, 2, 3, 4]) (some 1), .insert 0 0 (.ext 9) none])
    (fun s => decide (seen s 0 = some ([.val 9, .moved, .moved, .val 1, .val 4], 16, 1))) (by decide +kernel)
  exact ⟨s, r, of_decide_eq_true h⟩

/-- `Remove(0)` from `[1,2,3,4]` of strings: instead of `[2,3,4]` it gives `[4, moved, moved]` -/
theorem C19_remove_concrete_fails : ∃ s, Run obj init [.new, .setArr 0 (.ext [1, 2, 3, 4]) (some 1), .remove 0 0 1 none] s ∧ seen s 0 = some ([.val 4, .moved, .moved], 16, 1) := by
  obtain ⟨s, r, h⟩ := witness (T := obj) (ops := [.new, .setArr 0 (.ext [1, 2, 3, 4]) (some 1), .remove 0 0 1 none])
    (fun s => decide (seen s 0 = some ([.val 4, .moved, .moved], 16, 1))) (by decide +kernel)
  exact ⟨s, r, of_decide_eq_true h⟩

/-! ### arguments inside the modified array -/

/-- **C18 is false for `a.Insert(0, a[2])`:** the elements are shifted before the argument is read, so into `[1,2,3]` the value 2 is inserted and not 3. -/
theorem C18_insert_alias_fails : ∃ s, Run int init [.new, .setArr 0 (.ext [1, 2, 3]) (some 1)] s ∧ isOk (step int s (.insert 0 0 (.of 0 2) none)) = true ∧
    ((after int s (.insert 0 0 (.of 0 2) none)).map fun s' => items s' 0) = some [2, 1, 2, 3] ∧ (items s 0)[2]? = some 3 := by
  obtain ⟨s, r, h⟩ := witness (T := int) (ops := [.new, .setArr 0 (.ext [1, 2, 3]) (some 1)])
    (fun s => decide (isOk (step int s (.insert 0 0 (.of 0 2) none)) = true ∧ ((after int s (.insert 0 0 (.of 0 2) none)).map fun s' => items s' 0) = some [2, 1, 2, 3] ∧ (items s 0)[2]? = some 3))
    (by decide +kernel)
  exact ⟨s, r, of_decide_eq_true h⟩

def full : List Nat := [1, 2, 3, 4, 5, 6, 7, 8, 9, 10, 11, 12, 13, 14, 15, 16]

/-- **C18 is false for `a.Insert(k, a[j])` on a full array:** the storage is reallocated before the argument is read. -/
theorem C18_insert_alias_ub_fails : ∃ s, Run int init [.new, .setArr 0 (.ext full) (some 1)] s ∧ isUb (step int s (.insert 0 0 (.of 0 2) (some 2))) = true := by
  obtain ⟨s, r, h⟩ := witness (T := int) (ops := [.new, .setArr 0 (.ext full) (some 1)]) (fun s => isUb (step int s (.insert 0 0 (.of 0 2) (some 2)))) (by decide +kernel)
  exact ⟨s, r, h⟩

/-- **C18 is false for `a.Add(a.GetData(), n)` on a full array:** the storage is reallocated before the argument is read. -/
theorem C18_addN_alias_ub_fails : ∃ s, Run int init [.new, .setArr 0 (.ext full) (some 1)] s ∧ isUb (step int s (.addN 0 (.of 0 0 2) (some 2))) = true := by
  obtain ⟨s, r, h⟩ := witness (T := int) (ops := [.new, .setArr 0 (.ext full) (some 1)]) (fun s => isUb (step int s (.addN 0 (.of 0 0 2) (some 2)))) (by decide +kernel)
  exact ⟨s, r, h⟩

/-- **C18 is false for `a.SetArray(a.GetData() + 1, 2)`:** the elements are copied between overlapping objects (`memcpy`). -/
theorem C18_set_alias_ub_fails : ∃ s, Run int init [.new, .setArr 0 (.ext [1, 2, 3]) (some 1)] s ∧ isUb (step int s (.setArr 0 (.of 0 1 2) none)) = true := by
  obtain ⟨s, r, h⟩ := witness (T := int) (ops := [.new, .setArr 0 (.ext [1, 2, 3]) (some 1)]) (fun s => isUb (step int s (.setArr 0 (.of 0 1 2) none))) (by decide +kernel)
  exact ⟨s, r, h⟩

/-! ### locked arrays -/

/-- `[1]`, locked, and an unlocked `[2]` -/
def lockOne : List (Op Nat) := [.new, .setArr 0 (.ext [1]) (some 1), .lock 0 1 none, .new, .setArr 1 (.ext [2]) (some 2)]

/-- **C20 is false when an unlocked array is assigned to a locked one:** the call throws (`Attach`), but after `AddRef`: the block of the unlocked array counts two owners, and when both arrays are
destroyed it is never freed. -/
theorem C20_assign_locked_fails : ∃ s, Run int init lockOne s ∧ isThr (step int s (.assign 0 1 none)) = true ∧
    ((after int s (.assign 0 1 none)).bind fun s1 => (after int s1 (.del 0)).bind fun s2 => (after int s2 (.del 1)).map fun s3 => (s3.hs, (s3.mem 1).isSome, (s3.mem 2).isSome)) = some ([none, none], false, true) := by
  obtain ⟨s, r, h⟩ := witness (T := int) (ops := lockOne)
    (fun s => decide (isThr (step int s (.assign 0 1 none)) = true ∧
      ((after int s (.assign 0 1 none)).bind fun s1 => (after int s1 (.del 0)).bind fun s2 => (after int s2 (.del 1)).map fun s3 => (s3.hs, (s3.mem 1).isSome, (s3.mem 2).isSome)) = some ([none, none], false, true)))
    (by decide +kernel)
  exact ⟨s, r, of_decide_eq_true h⟩

/-- moving a locked array throws out of a `noexcept` function, which ends the program -/
theorem C20_move_locked_aborts : ∃ s, Run int init lockOne s ∧ isAbort (step int s (.moveNew 0)) = true ∧ isAbort (step int s (.moveAssign 1 0)) = true ∧ isAbort (step int s (.moveAssign 0 1)) = true := by
  obtain ⟨s, r, h⟩ := witness (T := int) (ops := lockOne)
    (fun s => decide (isAbort (step int s (.moveNew 0)) = true ∧ isAbort (step int s (.moveAssign 1 0)) = true ∧ isAbort (step int s (.moveAssign 0 1)) = true)) (by decide +kernel)
  exact ⟨s, r, of_decide_eq_true h⟩

/-- `LockBufferAndSetSize(0)` of a new array succeeds without locking, and the matching `UnlockBuffer` throws -/
theorem C20_lock_empty_fails : ∃ s, Run int init [.new, .lock 0 0 none] s ∧ (seen s 0).map (·.1) = some [] ∧ isThr (step int s (.unlock 0)) = true ∧
    (∀ s0, Run int init [.new] s0 → isOk (step int s0 (.lock 0 0 none)) = true) := by
  obtain ⟨s, r, h⟩ := witness (T := int) (ops := [.new, .lock 0 0 none]) (fun s => decide ((seen s 0).map (·.1) = some [] ∧ isThr (step int s (.unlock 0)) = true)) (by decide +kernel)
  have h := of_decide_eq_true h
  refine ⟨s, r, h.1, h.2, fun s0 r0 => ?_⟩
  cases r0 with
  | cons _ _ hs r1 =>
    cases r1
    have : _ = some s0 := hs
    simp only [step, Out.st, Option.some.injEq] at this
    subst this
    decide +kernel

/-- `Clear` refuses to drop the elements of a locked array, `Remove` does not: pointers into the array then point to elements that no longer exist -/
theorem remove_shrinks_locked : ∃ s, Run int init lockOne s ∧ isThr (step int s (.clear 0)) = true ∧ (∃ s', Run int init (lockOne ++ [.add 0 5 none, .remove 0 0 1 none]) s' ∧ seen s' 0 = some (vs [5], 16, -1)) := by
  obtain ⟨s, r, h⟩ := witness (T := int) (ops := lockOne) (fun s => isThr (step int s (.clear 0))) (by decide +kernel)
  obtain ⟨s', r', h'⟩ := witness (T := int) (ops := lockOne ++ [.add 0 5 none, .remove 0 0 1 none]) (fun s => decide (seen s 0 = some (vs [5], 16, -1))) (by decide +kernel)
  exact ⟨s, r, h, s', r', of_decide_eq_true h'⟩

end Verif.Arr
