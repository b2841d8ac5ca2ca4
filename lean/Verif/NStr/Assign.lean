import Verif.NStr.Witness

/-!
C116: an NString that is set from a String object (of any of the six classes) shares the object's storage when it is
copied and takes it when it is moved; no other handle changes, nothing leaks, and no allocation failure matters.
Strings whose buffer is locked are outside the model (C99).
-/

namespace Verif.NStr

theorem view_eq {w : World} {i p : Nat} (h : w.hs[i]? = some p) : view w i = bview w.st p := by
  unfold view; rw [h]; rfl

/-- every handle of a history has a block -/
theorem view_some {C : Conv} {fail : Nat → Bool} {w : World} (h : Reach C fail w) {i : Nat} (hi : i < w.hs.length) :
    ∃ e t, view w i = some (e, t) := by
  have hp := List.getElem?_eq_getElem hi
  have hx := reach_inv h
  rw [cnt_split hp] at hx
  obtain ⟨x, hx, -⟩ := hx.handle
  exact ⟨x.enc, x.text, by rw [view_eq hp]; unfold bview; rw [hx]; rfl⟩

/-- Copying: it succeeds whatever allocations fail, afterwards both have the encoding and the text of the String, in the
same storage, and no other handle has changed. -/
theorem C116_copy {C : Conv} {fail : Nat → Bool} {w : World} (h : Reach C fail w) {i j : Nat} (hi : i < w.hs.length)
    (hj : j < w.hs.length) (hij : i ≠ j) :
    ∃ w', step C fail w (.setCopy i j) = some w' ∧ w'.hs.length = w.hs.length ∧ w'.hs[i]? = w.hs[j]? ∧ w'.hs[j]? = w.hs[j]? ∧
      view w' i = view w j ∧ ∀ k, k ≠ i → view w' k = view w k := by
  have hp := List.getElem?_eq_getElem hi
  have hq := List.getElem?_eq_getElem hj
  obtain ⟨s', e1, i1, k1⟩ := setCopy_world fail (C := C) (reach_inv h) hp hq hij
  have a1 : (w.hs.set i w.hs[j])[i]? = some w.hs[j] := by rw [List.getElem?_set_self hi]
  refine ⟨_, e1, by simp, by rw [hq]; exact a1, List.getElem?_set_ne hij, ?_, fun k hk => ?_⟩
  · rw [view_eq (w := ⟨s', _⟩) a1, view_eq hq]
    exact k1 _ (.inr (rest_pos hq (fun h => hij h.symm)))
  · by_cases hkl : k < w.hs.length
    · exact C58_others_partial h (op := .setCopy i j) ⟨hi, hj, hij⟩ e1 (by intro _ h; cases h) hkl (by simp [Op.targets, hk])
    · have b1 : w.hs[k]? = none := List.getElem?_eq_none (by omega)
      unfold view; dsimp only; rw [List.getElem?_set_ne (fun h => hk h.symm), b1]

/-- Moving: it succeeds whatever allocations fail, the NString gets the String's storage with its encoding and text, and
the String is left empty in the encoding of its class; when the two already share their storage nothing changes.  No
other handle changes either way. -/
theorem C116_move {C : Conv} {fail : Nat → Bool} {w : World} (h : Reach C fail w) {i j : Nat} (hi : i < w.hs.length)
    (hj : j < w.hs.length) (hij : i ≠ j) :
    ∃ w', step C fail w (.setMove i j) = some w' ∧ w'.hs.length = w.hs.length ∧ w'.hs[i]? = w.hs[j]? ∧ view w' i = view w j ∧
      (w.hs[i]? = w.hs[j]? → w' = w) ∧
      (w.hs[i]? ≠ w.hs[j]? → view w' j = (view w j).map fun v => (cls v.1, [])) ∧
      ∀ k, k ≠ i → k ≠ j → view w' k = view w k := by
  have hp := List.getElem?_eq_getElem hi
  have hq := List.getElem?_eq_getElem hj
  by_cases hpq : w.hs[i] = w.hs[j]
  · have hq' := hq; rw [← hpq] at hq'
    refine ⟨w, setMove_same fail hp hq', rfl, by rw [hp, hq'], by rw [view_eq hp, view_eq hq'], fun _ => rfl, fun hne => ?_, fun _ _ _ => rfl⟩
    rw [hp, hq'] at hne; exact absurd rfl hne
  · obtain ⟨s', x, hx, e1, i1, k1⟩ := setMove_world fail (C := C) (reach_inv h) hp hq hij hpq
    have a1 : ((w.hs.set j (stat x.enc)).set i w.hs[j])[i]? = some w.hs[j] := by
      rw [List.getElem?_set_self (by rw [List.length_set]; exact hi)]
    have a2 : ((w.hs.set j (stat x.enc)).set i w.hs[j])[j]? = some (stat x.enc) := by
      rw [List.getElem?_set_ne hij, List.getElem?_set_self hj]
    refine ⟨_, e1, by simp, by rw [hq]; exact a1, ?_, fun he => ?_, fun _ => ?_, fun k hk hkj => ?_⟩
    · rw [view_eq (w := ⟨s', _⟩) a1, view_eq hq]
      exact k1 _ (.inr (by unfold plus; rw [if_pos rfl]; omega))
    · rw [hp, hq] at he; exact absurd (Option.some.inj he) hpq
    · rw [view_eq (w := ⟨s', _⟩) a2, view_eq hq]
      unfold bview; dsimp only
      rw [i1.stat, hx]; simp only [Option.map_some]
      cases x.enc <;> rfl
    · by_cases hkl : k < w.hs.length
      · exact C58_others_partial h (op := .setMove i j) ⟨hi, hj, hij⟩ e1 (by intro _ h; cases h) hkl (by simp [Op.targets, hk, hkj])
      · have b1 : w.hs[k]? = none := List.getElem?_eq_none (by omega)
        unfold view; dsimp only; rw [List.getElem?_set_ne (fun h => hk h.symm), List.getElem?_set_ne (fun h => hkj h.symm), b1]

/-- In every history the reference count of an allocated block is the number of handles that have it, and there is at
least one: once the last handle is gone the block is freed, and a handle never has a freed block. -/
theorem C116_no_leak {C : Conv} {fail : Nat → Bool} {w : World} (h : Reach C fail w) :
    (∀ a b, 6 ≤ a → w.st.blk a = some b → b.iRef = w.hs.count a ∧ a ∈ w.hs) ∧
    (∀ a ∈ w.hs, ∃ b, w.st.blk a = some b) ∧
    (w.hs = [] → ∀ a, 6 ≤ a → w.st.blk a = none) := by
  have hi := reach_inv h
  have h1 : ∀ a b, 6 ≤ a → w.st.blk a = some b → b.iRef = w.hs.count a ∧ a ∈ w.hs := fun a b ha hb =>
    have ⟨_, h2, h3, _⟩ := hi.live a b ha hb
    ⟨h2, List.count_pos_iff.mp h3⟩
  refine ⟨h1, fun a ha => ?_, fun he a ha => ?_⟩
  · obtain ⟨i, hl, rfl⟩ := List.mem_iff_getElem.mp ha
    have hx := hi
    rw [cnt_split (List.getElem?_eq_getElem hl)] at hx
    obtain ⟨x, hx, -⟩ := hx.handle
    exact ⟨x, hx⟩
  · cases hb : w.st.blk a with
    | none => rfl
    | some b => have := (h1 a b ha hb).2; rw [he] at this; cases this

/-- "é" in UTF-8 is copied into an NString with a UTF-16 text, that String then gets another text, and a text in code
page 936 is moved into the NString; at the end every handle is destroyed -/
def demoAssign : List Op :=
  [.new .u16le [0x4100], .new .u8 [0xC3, 0xA9], .new (.ansi 936) [0xB0, 0xA1], .setCopy 0 1, .setString 1 .u8 [0x41],
   .share 0, .setMove 0 2]

theorem C116_example :
    (runB never w0 demoAssign).map (fun w => [view w 0, view w 1, view w 2, view w 3]) =
      some [some (.ansi 936, [0xB0, 0xA1]), some (.u8, [0x41]), some (.ansi 0, []), some (.u8, [0xC3, 0xA9])] ∧
    (runB never w0 (demoAssign ++ [.del 0, .del 0, .del 0, .del 0])).map
      (fun w => (w.hs, decide (6 < w.st.next), (List.range w.st.next).filter fun a => decide (6 ≤ a) && (w.st.blk a).isSome)) =
        some ([], true, []) := by
  refine ⟨?_, ?_⟩ <;> decide +kernel

/-- the history is one of those of the theorems, and both kinds of assignment are possible in it -/
theorem C116_example_reach : ∃ w, Reach C0 never w ∧ w.hs.length = 4 ∧ w.hs[0]? ≠ w.hs[1]? ∧ view w 3 = some (.u8, [0xC3, 0xA9]) := by
  have h : (runB never w0 demoAssign).map (fun w => (w.hs.length, decide (w.hs[0]? ≠ w.hs[1]?), view w 3)) =
      some (4, true, some (.u8, [0xC3, 0xA9])) := by decide +kernel
  cases h1 : runB never w0 demoAssign with
  | none => rw [h1] at h; cases h
  | some w =>
    rw [h1, Option.map_some, Option.some.injEq, Prod.mk.injEq, Prod.mk.injEq] at h
    exact ⟨w, reach_of_B .init h1, h.1, of_decide_eq_true h.2.1, h.2.2⟩

end Verif.NStr
