import Verif.AnsiView.Model
import Verif.View.Cut
import Verif.View.Search
import Verif.Utf.Spec

/-!
# C115: parts of an encoded view keep the encoding and stay inside the view
-/
namespace Verif.AnsiView
open Verif.View

/-- `w` is a window inside the window `v`, or the null view that `Clear` leaves -/
def Inside (w v : View Int) : Prop := w = ⟨[], 0, 0⟩ ∨ (w.mem = v.mem ∧ v.off ≤ w.off ∧ w.off + w.len ≤ v.off + v.len)

theorem Inside.refl (v : View Int) : Inside v v := .inr ⟨rfl, Nat.le_refl _, Nat.le_refl _⟩

theorem Inside.trans {u v w : View Int} (h : Inside u v) (k : Inside v w) : Inside u w := by
  rcases h with h | ⟨h1, h2, h3⟩
  · exact .inl h
  · rcases k with k | ⟨k1, k2, k3⟩
    · left
      subst k
      obtain ⟨m, o, l⟩ := u
      dsimp only at h1 h2 h3
      have : o = 0 := by omega
      have : l = 0 := by omega
      subst h1; subst o; subst l; rfl
    · exact .inr ⟨h1.trans k1, by omega, by omega⟩

theorem Inside.wf {w v : View Int} (h : Inside w v) (hv : v.WF) : w.WF := by
  rcases h with h | ⟨h1, h2, h3⟩
  · subst h; exact ⟨Nat.le_refl _, Nat.lt_trans Nat.zero_lt_one W_pos⟩
  · obtain ⟨a, b⟩ := hv
    exact ⟨by rw [h1]; omega, by rw [h1]; exact b⟩

theorem inside_from (v : View Int) (i : Nat) : Inside (View.substringFrom v i) v := by
  unfold View.substringFrom
  split
  · exact .inr ⟨rfl, by dsimp only; omega, by dsimp only; omega⟩
  · exact .inr ⟨rfl, by dsimp only; omega, by dsimp only; omega⟩

theorem inside_sub (v : View Int) (i n : Nat) : Inside (View.substring v i n) v := by
  unfold View.substring
  split
  · exact .inr ⟨rfl, by dsimp only; omega, by dsimp only; omega⟩
  · exact .inr ⟨rfl, by dsimp only; omega, by dsimp only; omega⟩

theorem inside_slice (v : View Int) (hv : v.off + v.len < W) (x y : Nat) (h : x + y < W) : Inside (View.slice v x y) v := by
  unfold View.slice
  rw [Nat.mod_eq_of_lt h]
  split
  · exact .inr ⟨rfl, Nat.le_refl _, by dsimp only; omega⟩
  · rename_i hl
    have e1 : (v.off + x) % W = v.off + x := Nat.mod_eq_of_lt (by omega)
    have e2 : (v.len + (W - x) + (W - y)) % W = v.len - x - y := by
      rw [show v.len + (W - x) + (W - y) = (v.len - x - y) + W + W by omega, Nat.add_mod_right, Nat.add_mod_right]
      exact Nat.mod_eq_of_lt (by omega)
    refine .inr ⟨rfl, ?_, ?_⟩
    · dsimp only; omega
    · dsimp only; omega

theorem inside_startLoop (s : View Int) : ∀ (n : Nat) (v w : View Int), v.len = n → View.trimStartLoop s v n = some w → Inside w v
  | 0, v, w, _, h => by cases h; exact .refl v
  | n + 1, v, w, hn, h => by
    unfold View.trimStartLoop at h
    split at h
    · cases h
    · split at h
      · cases h
      · exact (inside_startLoop s n _ w rfl h).trans (.inr ⟨rfl, by dsimp only; omega, by dsimp only; omega⟩)
      · cases h; exact .refl v

theorem inside_endLoop (s : View Int) : ∀ (n : Nat) (v w : View Int), v.len = n → View.trimEndLoop s v n = some w → Inside w v
  | 0, v, w, _, h => by cases h; exact .refl v
  | n + 1, v, w, hn, h => by
    unfold View.trimEndLoop at h
    split at h
    · cases h
    · split at h
      · cases h
      · exact (inside_endLoop s n _ w rfl h).trans (.inr ⟨rfl, Nat.le_refl _, by dsimp only; omega⟩)
      · cases h; exact .refl v

theorem inside_start {s v w : View Int} (h : View.trimStart v s = some w) : Inside w v := by
  unfold View.trimStart at h
  split at h
  · cases h; exact .refl v
  · exact inside_startLoop s _ v w rfl h

theorem inside_end {s v w : View Int} (h : View.trimEnd v s = some w) : Inside w v := by
  unfold View.trimEnd at h
  split at h
  · cases h; exact .refl v
  · exact inside_endLoop s _ v w rfl h

theorem start_part {a s b : AView} (h : trimStart a s = some b) : b.enc = a.enc ∧ Inside b.v a.v := by
  unfold trimStart at h
  rw [Option.map_eq_some_iff] at h
  obtain ⟨w, hw, rfl⟩ := h
  exact ⟨rfl, inside_start hw⟩

theorem end_part {a s b : AView} (h : trimEnd a s = some b) : b.enc = a.enc ∧ Inside b.v a.v := by
  unfold trimEnd at h
  rw [Option.map_eq_some_iff] at h
  obtain ⟨w, hw, rfl⟩ := h
  exact ⟨rfl, inside_end hw⟩

theorem split_part {a : AView} {c : Int} {i : Nat} {p : AView × Nat} (h : splitFirst a c i = some p) : p.1.enc = a.enc ∧ Inside p.1.v a.v := by
  unfold splitFirst at h
  split at h
  · cases h
  · cases h; exact ⟨rfl, inside_from _ _⟩
  · cases h; exact ⟨rfl, inside_sub _ _ _⟩

theorem splitSeq_part {a s : AView} {i : Nat} {p : AView × Nat} (h : splitFirstSeq a s i = some p) : p.1.enc = a.enc ∧ Inside p.1.v a.v := by
  unfold splitFirstSeq at h
  split at h
  · cases h
  · cases h; exact ⟨rfl, inside_from _ _⟩
  · cases h; exact ⟨rfl, inside_sub _ _ _⟩

/-- the arguments of `Slice` do not wrap around (otherwise C13_fails); views given as arguments are valid -/
def Op.Ok : Op → Prop
  | .slice x y => x + y < W
  | .trimStart s => s.v.WF
  | .trimEnd s => s.v.WF
  | .trim s => s.v.WF
  | .splitSeq s _ => s.v.WF
  | .restSeq s _ => s.v.WF
  | _ => True

theorem split_some {a : AView} (ha : a.v.WF) (c : Int) (i : Nat) : ∃ p, splitFirst a c i = some p ∧ p.1.enc = a.enc ∧ Inside p.1.v a.v := by
  obtain ⟨_, _, ⟨r, h, _⟩, _⟩ := C14_indexOf_char a.v ha c i (W - 1)
  have : ∃ p, splitFirst a c i = some p := by
    unfold splitFirst; rw [h]
    cases r with
    | none => exact ⟨_, rfl⟩
    | some k => exact ⟨_, rfl⟩
  obtain ⟨p, hp⟩ := this
  exact ⟨p, hp, split_part hp⟩

theorem splitSeq_some {a s : AView} (ha : a.v.WF) (hs : s.v.WF) (i : Nat) : ∃ p, splitFirstSeq a s i = some p ∧ p.1.enc = a.enc ∧ Inside p.1.v a.v := by
  obtain ⟨_, _, ⟨r, h, _⟩, _⟩ := C14_indexOf_string a.v s.v ha hs i (W - 1)
  have : ∃ p, splitFirstSeq a s i = some p := by
    unfold splitFirstSeq; rw [h]
    cases r with
    | none => exact ⟨_, rfl⟩
    | some k => exact ⟨_, rfl⟩
  obtain ⟨p, hp⟩ := this
  exact ⟨p, hp, splitSeq_part hp⟩

theorem start_some {a s : AView} (ha : a.v.WF) (hs : s.v.WF) : ∃ b, trimStart a s = some b ∧ b.enc = a.enc ∧ Inside b.v a.v := by
  obtain ⟨r, h, _⟩ := trimStart_spec ha hs
  exact ⟨⟨r, a.enc⟩, by simp [trimStart, h], rfl, inside_start h⟩

theorem end_some {a s : AView} (ha : a.v.WF) (hs : s.v.WF) : ∃ b, trimEnd a s = some b ∧ b.enc = a.enc ∧ Inside b.v a.v := by
  obtain ⟨r, h, _⟩ := trimEnd_spec ha hs
  exact ⟨⟨r, a.enc⟩, by simp [trimEnd, h], rfl, inside_end h⟩

theorem apply_part {a : AView} {o : Op} (ha : a.v.WF) (ho : o.Ok) : ∃ b, apply a o = some b ∧ b.enc = a.enc ∧ Inside b.v a.v := by
  cases o with
  | slice x y => exact ⟨_, rfl, rfl, inside_slice _ (Nat.lt_of_le_of_lt ha.1 ha.2) x y ho⟩
  | «from» i => exact ⟨_, rfl, rfl, inside_from _ _⟩
  | sub i n => exact ⟨_, rfl, rfl, inside_sub _ _ _⟩
  | trimStart s => exact start_some ha ho
  | trimEnd s => exact end_some ha ho
  | trim s =>
    obtain ⟨m, h1, e1, i1⟩ := start_some ha ho
    obtain ⟨b, h2, e2, i2⟩ := end_some (i1.wf ha) ho
    exact ⟨b, by simp [apply, trim, h1, h2], e2.trans e1, i2.trans i1⟩
  | split c i =>
    obtain ⟨p, hp, h⟩ := split_some ha c i
    exact ⟨p.1, by simp [apply, hp], h⟩
  | splitSeq s i =>
    obtain ⟨p, hp, h⟩ := splitSeq_some ha ho i
    exact ⟨p.1, by simp [apply, hp], h⟩
  | rest c first =>
    obtain ⟨p, hp, h⟩ := split_some ha c 0
    cases first
    · exact ⟨substringFrom a p.2, by simp [apply, splitRest, hp], rfl, inside_from _ _⟩
    · exact ⟨p.1, by simp [apply, splitRest, hp], h⟩
  | restSeq s first =>
    obtain ⟨p, hp, h⟩ := splitSeq_some ha ho 0
    cases first
    · exact ⟨substringFrom a p.2, by simp [apply, splitRestSeq, hp], rfl, inside_from _ _⟩
    · exact ⟨p.1, by simp [apply, splitRestSeq, hp], h⟩
  | clear => exact ⟨_, rfl, rfl, .inl rfl⟩

/-- **C115 (partial: `Slice` with arguments that do not wrap around).**  Whatever chain of cutting, trimming and splitting is applied to a valid view of encoded bytes, nothing outside of the views is read, the result has the
encoding of the view, and it is a window inside that of the view (or the null view, after `Clear`). -/
theorem C115_part_partial {os : List Op} : ∀ {a : AView}, a.v.WF → (∀ o ∈ os, o.Ok) → ∃ b, applyAll a os = some b ∧ b.enc = a.enc ∧ b.v.WF ∧ Inside b.v a.v := by
  induction os with
  | nil => intro a ha _; exact ⟨a, rfl, rfl, ha, .refl _⟩
  | cons o os ih =>
    intro a ha ho
    obtain ⟨m, h1, e1, i1⟩ := apply_part ha (ho o List.mem_cons_self)
    obtain ⟨b, h2, e2, w2, i2⟩ := ih (i1.wf ha) (fun o h => ho o (List.mem_cons_of_mem _ h))
    exact ⟨b, by simp [applyAll, h1, h2], e2.trans e1, w2, i2.trans i1⟩

/-- so the bytes of the result are consecutive bytes of the view -/
theorem C115_bytes_partial {os : List Op} {a : AView} (ha : a.v.WF) (ho : ∀ o ∈ os, o.Ok) :
    ∃ b i n, applyAll a os = some b ∧ b.enc = a.enc ∧ b.v.text = (a.v.text.drop i).take n := by
  obtain ⟨b, hb, he, _, h | ⟨h1, h2, h3⟩⟩ := C115_part_partial ha ho
  · exact ⟨b, 0, 0, hb, he, by simp [View.text, h]⟩
  · refine ⟨b, b.v.off - a.v.off, b.v.len, hb, he, ?_⟩
    unfold View.text
    rw [h1, List.drop_take, List.drop_drop, List.take_take, show a.v.off + (b.v.off - a.v.off) = b.v.off by omega,
      Nat.min_eq_left (by omega)]

/-- "k = v" in UTF-8 (65001): the part behind '=', trimmed, has the encoding of the whole -/
theorem C115_example : applyAll ⟨⟨[107, 32, 61, 32, 118], 0, 5⟩, 65001⟩ [.rest 61 false, .trim ⟨⟨[32], 0, 1⟩, 0⟩] = some ⟨⟨[107, 32, 61, 32, 118], 4, 1⟩, 65001⟩ := by
  decide +kernel

/-! ### Null views -/

/-- **C115.**  The other views made of a null pointer are empty whatever length is given, so that nothing is read through it. -/
theorem C115_null_other (n : Nat) : (makeOther none n).WF ∧ (makeOther none n).text = [] :=
  ⟨⟨Nat.le_refl _, Nat.lt_trans Nat.zero_lt_one W_pos⟩, rfl⟩

/-- **C115 fails for null pointers.**  The view of bytes keeps the given length: it is not valid, and a search or a comparison reads through the null pointer. -/
theorem C115_null_fails (n enc : Nat) (hn : 0 < n) (c : Int) (b : AView) (hb : b.v.len = n) :
    ¬ (make none n enc).v.WF ∧ indexOf (make none n enc).v c = none ∧ equal (make none n enc) b = none := by
  obtain ⟨k, rfl⟩ : ∃ k, n = k + 1 := ⟨n - 1, by omega⟩
  refine ⟨fun h => ?_, ?_, ?_⟩
  · have := h.1
    simp [make, window] at this
  · simp [make, window, indexOf, fwd, View.rd]
  · simp [make, window, equal, View.eq, hb, eqLoop, View.rd]

/-! ### Equality -/

/-- `==` compares the bytes only -/
theorem C115_equal_bytes {a b : AView} (ha : a.v.WF) (hb : b.v.WF) : equal a b = some (decide (a.v.text = b.v.text)) ∧ differ a b = some (!decide (a.v.text = b.v.text)) :=
  ⟨C27_equal_partial a.v b.v ha hb, C27_stringView_ne a.v b.v ha hb⟩

/-- bytes as the values of `char` (`char` is signed: bytes from 128 on are negative) -/
def Bytes (l : List Nat) : List Int := l.map fun (n : Nat) => if n < 128 then (n : Int) else (n : Int) - 256

/-- the text that bytes stand for in the two encodings used below: UTF-8 (65001) and Latin-1 (code page 28591, each byte is the character of that number) -/
def Means (enc : Nat) (bytes : List Int) (cs : List Nat) : Prop :=
  (enc = 65001 ∧ bytes = Bytes (Verif.Utf.Spec.utf8s cs)) ∨ (enc = 28591 ∧ bytes = Bytes cs ∧ ∀ c ∈ cs, c < 256)

/-- **C115 fails: equal views, different text.**  The bytes C3 A9 are "é" in UTF-8 and "Ã©" in Latin-1; views with these encodings are equal. -/
theorem C115_equal_fails : ∃ a b cs ds, a.v.WF ∧ b.v.WF ∧ equal a b = some true ∧ Means a.enc a.v.text cs ∧ Means b.enc b.v.text ds ∧ cs ≠ ds := by
  refine ⟨⟨⟨[-61, -87], 0, 2⟩, 65001⟩, ⟨⟨[-61, -87], 0, 2⟩, 28591⟩, [0xE9], [0xC3, 0xA9], ?_, ?_, by decide, .inl ⟨rfl, by decide⟩, .inr ⟨rfl, by decide, by decide⟩, by decide⟩
  · exact ⟨by decide, by unfold W; decide⟩
  · exact ⟨by decide, by unfold W; decide⟩

#print axioms C115_part_partial
#print axioms C115_bytes_partial
#print axioms C115_null_fails
#print axioms C115_equal_fails

end Verif.AnsiView
