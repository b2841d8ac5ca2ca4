import Verif.View.Search
/-!
# C15 – splitting by a separator
-/
namespace Verif.View
variable {α : Type} [DecidableEq α]

/-! ## Specification -/

/-- join pieces with a separator -/
def join (s : List α) : List (List α) → List α
  | [] => []
  | [p] => p
  | p :: q :: ps => p ++ s ++ join s (q :: ps)

/-- What one call has to deliver at index `i` (`i ≤ length`): the text up to the next separator and the index behind that separator, or the
rest of the text and its length. -/
def FirstOk (t s : List α) (first : Nat → Option (View α × Nat)) : Prop :=
  ∀ i, i ≤ t.length → ∃ p next, first i = some (p, next) ∧
    (((∀ k, ¬ Occurs (t.drop i) s k) ∧ p.text = t.drop i ∧ next = t.length) ∨
     (∃ k, Occurs (t.drop i) s k ∧ (∀ j, j < k → ¬ Occurs (t.drop i) s j) ∧ p.text = (t.drop i).take k ∧ next = i + k + s.length))

omit [DecidableEq α] in
theorem occurs_split {t s : List α} {k : Nat} (h : Occurs t s k) : t = t.take k ++ s ++ t.drop (k + s.length) := by
  obtain ⟨h1, h2⟩ := h
  have e : t.drop k = s ++ t.drop (k + s.length) := by
    conv => lhs; rw [← List.take_append_drop s.length (t.drop k)]
    rw [h2, List.drop_drop]
  rw [List.append_assoc, ← e, List.take_append_drop]

omit [DecidableEq α] in
/-- no occurrence in the part before the first occurrence -/
theorem no_occurs_take {t s : List α} {k : Nat} (hs : s ≠ []) (hk : ∀ j, j < k → ¬ Occurs t s j) (j : Nat) : ¬ Occurs (t.take k) s j := by
  intro ⟨h1, h2⟩
  have h0 : 0 < s.length := List.length_pos_iff.2 hs
  simp only [List.length_take] at h1
  refine hk j (by omega) ⟨by omega, ?_⟩
  rw [List.drop_take, List.take_take, Nat.min_eq_left (by omega)] at h2
  exact h2

omit [DecidableEq α] in
theorem splitLoop_spec (t s : List α) (hs : s ≠ []) (first : Nat → Option (View α × Nat)) (hf : FirstOk t s first)
    (fuel i : Nat) (hi : i ≤ t.length) (hfuel : t.length - i < fuel) :
    ∃ ps, splitLoop first t.length i fuel = some ps ∧ ps ≠ [] ∧ (∀ p ∈ ps, ∀ k, ¬ Occurs p.text s k) ∧
      (t.drop i = join s (ps.map View.text) ∨ (t.drop i = join s (ps.map View.text) ++ s)) := by
  have h0 : 0 < s.length := List.length_pos_iff.2 hs
  induction fuel generalizing i with
  | zero => omega
  | succ fuel ih =>
    obtain ⟨p, next, h1, h2⟩ := hf i hi
    rcases h2 with ⟨q1, q2, q3⟩ | ⟨k, q1, q2, q3, q4⟩
    · refine ⟨[p], by simp [splitLoop, h1, q3], by simp, ?_, .inl (by simp [join, q2])⟩
      intro p' hp'
      simp at hp'
      subst hp'
      rw [q2]; exact q1
    · have hsplit := occurs_split q1
      have hno : ∀ j, ¬ Occurs p.text s j := by rw [q3]; exact no_occurs_take hs q2
      have hb := q1.1
      simp only [List.length_drop] at hb
      by_cases hn : next < t.length
      · obtain ⟨ps, g1, g2, g3, g4⟩ := ih next (by omega) (by omega)
        refine ⟨p :: ps, by simp [splitLoop, h1, hn, g1], by simp, ?_, ?_⟩
        · intro p' hp'
          rcases List.mem_cons.1 hp' with rfl | h
          · exact hno
          · exact g3 p' h
        · have hd : (t.drop i).drop (k + s.length) = t.drop next := by rw [List.drop_drop, q4]; congr 1; omega
          rw [hd] at hsplit
          cases ps with
          | nil => exact absurd rfl g2
          | cons a as =>
            simp only [List.map_cons, join]
            simp only [List.map_cons] at g4
            rw [hsplit, q3]
            rcases g4 with g4 | g4
            · left; rw [g4]
            · right; rw [g4]; simp
      · refine ⟨[p], by simp [splitLoop, h1, hn], by simp, ?_, .inr ?_⟩
        · intro p' hp'
          simp at hp'
          subst hp'
          exact hno
        · have hd : (t.drop i).drop (k + s.length) = [] := by rw [List.drop_drop]; exact List.drop_eq_nil_of_le (by omega)
          rw [hd] at hsplit
          simp only [List.map_cons, List.map_nil, join, q3]
          simpa using hsplit

theorem occurs_drop {t s : List α} {i k : Nat} : Occurs (t.drop i) s k ↔ (k + s.length ≤ t.length - i ∧ (t.drop (i + k)).take s.length = s) := by
  simp [Occurs, List.drop_drop]

/-- the specification of one call from the specification of the search -/
theorem firstOk_of_search {v : View α} (hv : v.WF) (s : List α) (hs : s ≠ []) (search : Nat → Option (Option Nat))
    (h : ∀ i, ∃ r, search i = some r ∧ IsLeast (fun k => i ≤ k ∧ Occurs v.text s k) r) :
    FirstOk v.text s (fun i => match search i with
      | none => none
      | some none => some (substringFrom v i, v.len)
      | some (some k) => some (substring v i (k - i), k + s.length)) := by
  have h0 : 0 < s.length := List.length_pos_iff.2 hs
  intro i hi
  obtain ⟨r, h1, h2⟩ := h i
  have tr : ∀ k, Occurs (v.text.drop i) s k → Occurs v.text s (i + k) := by
    intro k hk
    rw [occurs_drop] at hk
    exact ⟨by omega, hk.2⟩
  have tr' : ∀ k, i ≤ k → Occurs v.text s k → Occurs (v.text.drop i) s (k - i) := by
    intro k hik hk
    rw [occurs_drop, Nat.add_sub_cancel' hik]
    have := hk.1
    exact ⟨by omega, hk.2⟩
  cases r with
  | none =>
    refine ⟨substringFrom v i, v.len, by simp [h1], .inl ⟨fun k hk => h2 (i + k) ⟨by omega, tr k hk⟩, (substringFrom_text v hv i).1, (text_length hv).symm⟩⟩
  | some k =>
    obtain ⟨⟨g1, g2⟩, g3⟩ := h2
    refine ⟨substring v i (k - i), k + s.length, by simp [h1], .inr ⟨k - i, tr' k g1 g2, ?_, (substring_text v hv i (k - i)).1, by omega⟩⟩
    intro j hj hq
    exact g3 (i + j) (by omega) ⟨by omega, tr j hq⟩

omit [DecidableEq α] in
theorem occurs_single (t : List α) (c : α) (k : Nat) : Occurs t [c] k ↔ t[k]? = some c := by
  unfold Occurs
  simp only [List.length_singleton]
  constructor
  · rintro ⟨h1, h2⟩
    have := congrArg (·[0]?) h2
    simpa [List.getElem?_take] using this
  · intro h
    obtain ⟨h1, h2⟩ := List.getElem?_eq_some_iff.1 h
    refine ⟨by omega, ?_⟩
    rw [List.drop_eq_getElem_cons h1, h2]; simp

theorem search_string {v s : View α} (hv : v.WF) (hs : s.WF) (hs0 : s.text ≠ []) (i : Nat) :
    ∃ r, indexOfSeqIn v s i (W - 1) = some r ∧ IsLeast (fun k => i ≤ k ∧ Occurs v.text s.text k) r := by
  obtain ⟨_, _, ⟨r, h1, h2⟩, _⟩ := C14_indexOf_string v s hv hs i (W - 1)
  refine ⟨r, h1, h2.congr fun k => ⟨fun h => ⟨h.2.1, h.2.2.2⟩, fun h => ⟨hs0, h.1, ?_, h.2⟩⟩⟩
  have := h.2.1
  rw [text_length hv] at this
  have := hv.1; have := hv.2; have := W_pos
  omega

theorem search_char {v : View α} (hv : v.WF) (c : α) (i : Nat) :
    ∃ r, indexOfIn v c i (W - 1) = some r ∧ IsLeast (fun k => i ≤ k ∧ Occurs v.text [c] k) r := by
  obtain ⟨_, _, ⟨r, h1, h2⟩, _⟩ := C14_indexOf_char v hv c i (W - 1)
  refine ⟨r, h1, h2.congr fun k => ?_⟩
  rw [occurs_single]
  refine ⟨fun h => ⟨h.1, h.2.2⟩, fun h => ⟨h.1, ?_, h.2⟩⟩
  have := getElem?_iff hv h.2
  have := hv.1; have := hv.2; have := W_pos
  omega

/-- **C15**, the part that holds.  For every text and every separator (a character, or a non-empty string): the caller's loop over
`SplitAndTakeFirst` terminates (at most `length + 1` calls), no call reads outside the view, no piece contains the separator, and joining
the pieces gives the text, or the text without one trailing separator.  What is missing from the full claim is exactly the second case
(`C15_fails`). -/
theorem C15_split_partial (v : View α) (hv : v.WF) :
    (∀ c, ∃ ps, splitLoop (splitFirst v c) v.len 0 (v.len + 1) = some ps ∧ (∀ p ∈ ps, c ∉ p.text) ∧
      (v.text = join [c] (ps.map View.text) ∨ v.text = join [c] (ps.map View.text) ++ [c])) ∧
    (∀ s : View α, s.WF → s.text ≠ [] → ∃ ps, splitLoop (splitFirstSeq v s) v.len 0 (v.len + 1) = some ps ∧
      (∀ p ∈ ps, ¬ s.text <:+: p.text) ∧
      (v.text = join s.text (ps.map View.text) ∨ v.text = join s.text (ps.map View.text) ++ s.text)) := by
  have lv := text_length hv
  constructor
  · intro c
    obtain ⟨ps, h1, _, h3, h4⟩ := splitLoop_spec v.text [c] (by simp) _ (firstOk_of_search hv [c] (by simp) _ (search_char hv c))
      (v.len + 1) 0 (by omega) (by omega)
    rw [lv] at h1
    refine ⟨ps, h1, fun p hp hc => ?_, by simpa using h4⟩
    obtain ⟨k, hk⟩ := List.mem_iff_getElem?.1 hc
    exact h3 p hp k ((occurs_single _ _ _).2 hk)
  · intro s hs hs0
    obtain ⟨ps, h1, _, h3, h4⟩ := splitLoop_spec v.text s.text hs0 _ (firstOk_of_search hv s.text hs0 _ (search_string hv hs hs0))
      (v.len + 1) 0 (by omega) (by omega)
    rw [lv] at h1
    refine ⟨ps, ?_, fun p hp hc => ?_, by simpa using h4⟩
    · rw [← h1]
      congr 1
      funext i
      simp only [splitFirstSeq, text_length hs]
      rcases indexOfSeqIn v s i (W - 1) with _ | _ | k <;> rfl
    · obtain ⟨a, b, hab⟩ := hc
      refine h3 p hp a.length ⟨?_, ?_⟩
      · rw [← hab]; simp
      · rw [← hab]; simp

/-- The form that returns the remaining view: piece, separator and rest give the text back; without a separator the piece is the text and
the rest is empty. -/
theorem C15_split_rest (v : View α) (hv : v.WF) (c : α) :
    ∃ p r, splitRest v c = some (p, r) ∧ c ∉ p.text ∧
      (v.text = p.text ++ [c] ++ r.text ∨ (c ∉ v.text ∧ p.text = v.text ∧ r.text = [])) := by
  obtain ⟨p, next, h1, h2⟩ := firstOk_of_search hv [c] (by simp) _ (search_char hv c) 0 (by omega)
  have e : splitFirst v c 0 = some (p, next) := h1
  refine ⟨p, substringFrom v next, by simp [splitRest, e], ?_, ?_⟩
  · intro hc
    obtain ⟨k, hk⟩ := List.mem_iff_getElem?.1 hc
    have hk := (occurs_single _ _ _).2 hk
    rcases h2 with ⟨q1, q2, q3⟩ | ⟨k', q1, q2, q3, q4⟩
    · rw [q2] at hk; exact q1 k hk
    · rw [q3] at hk; exact no_occurs_take (by simp) q2 k hk
  · rw [(substringFrom_text v hv next).1]
    rcases h2 with ⟨q1, q2, q3⟩ | ⟨k', q1, q2, q3, q4⟩
    · right
      refine ⟨fun hc => ?_, by simpa using q2, by rw [q3]; simp⟩
      obtain ⟨k, hk⟩ := List.mem_iff_getElem?.1 hc
      exact q1 k ((occurs_single _ _ _).2 hk)
    · left
      have := occurs_split q1
      simp only [List.drop_zero] at this q3
      rw [q3, q4]
      simpa using this

omit [DecidableEq α] in
theorem occurs_infix {t s : List α} (h : s <:+: t) : ∃ k, Occurs t s k := by
  obtain ⟨a, b, hab⟩ := h
  refine ⟨a.length, ?_, ?_⟩
  · rw [← hab]; simp
  · rw [← hab]; simp

/-- The same form with a string as separator (690-699); an empty separator is never found. -/
theorem C15_split_rest_string (v s : View α) (hv : v.WF) (hs : s.WF) :
    ∃ p r, splitRestSeq v s = some (p, r) ∧
      ((s.text = [] ∧ p.text = v.text ∧ r.text = []) ∨
       (s.text ≠ [] ∧ ¬ s.text <:+: p.text ∧ (v.text = p.text ++ s.text ++ r.text ∨ (¬ s.text <:+: v.text ∧ p.text = v.text ∧ r.text = [])))) := by
  by_cases hs0 : s.text = []
  · have l0 : s.len = 0 := by have := text_length hs; rw [hs0] at this; simpa using this.symm
    refine ⟨substringFrom v 0, substringFrom v v.len, by simp [splitRestSeq, splitFirstSeq, indexOfSeqIn, l0], .inl ⟨hs0, ?_, ?_⟩⟩
    · rw [(substringFrom_text v hv 0).1]; simp
    · rw [(substringFrom_text v hv v.len).1]
      exact List.drop_eq_nil_of_le (by rw [text_length hv]; omega)
  · obtain ⟨p, next, h1, h2⟩ := firstOk_of_search hv s.text hs0 _ (search_string hv hs hs0) 0 (by omega)
    have e : splitFirstSeq v s 0 = some (p, next) := by
      rw [← h1]
      simp only [splitFirstSeq, text_length hs]
      rcases indexOfSeqIn v s 0 (W - 1) with _ | _ | k <;> rfl
    refine ⟨p, substringFrom v next, by simp [splitRestSeq, e], .inr ⟨hs0, ?_, ?_⟩⟩
    · intro hc
      obtain ⟨k, hk⟩ := occurs_infix hc
      rcases h2 with ⟨q1, q2, q3⟩ | ⟨k', q1, q2, q3, q4⟩
      · rw [q2] at hk; exact q1 k hk
      · rw [q3] at hk; exact no_occurs_take hs0 q2 k hk
    · rw [(substringFrom_text v hv next).1]
      rcases h2 with ⟨q1, q2, q3⟩ | ⟨k', q1, q2, q3, q4⟩
      · right
        refine ⟨fun hc => ?_, by simpa using q2, by rw [q3]; simp⟩
        obtain ⟨k, hk⟩ := occurs_infix hc
        exact q1 k (by simpa using hk)
      · left
        have := occurs_split q1
        simp only [List.drop_zero] at this q3
        rw [q3, q4]
        simpa using this

/-- **C15 fails**: splitting "a," by ',' yields the single piece "a", exactly as splitting "a" does; joining loses the separator. -/
theorem C15_fails :
    ∃ v w : View Nat, v.WF ∧ w.WF ∧ v.text = [97, 44] ∧ w.text = [97] ∧
      (splitLoop (splitFirst v 44) v.len 0 (v.len + 1)).map (·.map View.text) = some [[97]] ∧
      (splitLoop (splitFirst w 44) w.len 0 (w.len + 1)).map (·.map View.text) = some [[97]] ∧
      join [44] [[97]] ≠ v.text := by
  refine ⟨⟨[97, 44], 0, 2⟩, ⟨[97], 0, 1⟩, ⟨by decide, ?_⟩, ⟨by decide, ?_⟩, by decide, by decide, ?_, ?_, by decide⟩
  · unfold W; decide
  · unfold W; decide
  all_goals
    simp [splitLoop, splitFirst, indexOfIn, substring, substringFrom, indexOf, fwd, View.rd, shift, W, View.text]

/-- Non-vacuity: "a,,b" -/
example : join [44] [[97], [], [98]] = [97, 44, 44, 98] := by decide

#print axioms C15_split_partial
#print axioms C15_split_rest
#print axioms C15_fails
end Verif.View
