import Verif.View.Lemmas
/-!
# C12 (trimming) and C13 (Remove, Substring, Slice)
-/
namespace Verif.View
variable {α : Type}

/-! ## Specification -/

/-- drop the longest suffix of elements satisfying `p` -/
def dropWhileEnd (p : α → Bool) (t : List α) : List α := (t.reverse.dropWhile p).reverse

/-- `t` without the elements at positions `[i, i+n)` -/
def cut (t : List α) (i n : Nat) : List α := t.take i ++ t.drop (i + n)

/-- `t` without its first `a` and last `b` elements; empty when these overlap or meet -/
def inner (t : List α) (a b : Nat) : List α := (t.take (t.length - b)).drop a

/-! ## C13 -/

theorem sRemove_eq (t : List α) (i n : Nat) : sRemove t i n = cut t i n := by
  unfold sRemove cut
  by_cases h : t.length ≤ i
  · rw [if_pos h, List.take_of_length_le h, List.drop_eq_nil_of_le (by omega)]; simp
  · rw [if_neg h]
    simp only
    by_cases h1 : min n (t.length - i) = 0
    · have : n = 0 := by omega
      subst this
      simp
    · rw [if_neg h1]
      by_cases h2 : t.length - min n (t.length - i) = 0
      · rw [if_pos h2]
        have hi : i = 0 := by omega
        subst hi
        rw [List.drop_eq_nil_of_le (by omega)]; simp
      · rw [if_neg h2]
        congr 1
        by_cases h3 : n ≤ t.length - i
        · rw [Nat.min_eq_left h3, List.take_of_length_le (by simp; omega)]
        · rw [Nat.min_eq_right (by omega), List.drop_eq_nil_of_le (show t.length ≤ i + n by omega),
            List.drop_eq_nil_of_le (by omega)]; simp

theorem slice_spec (v : View α) (hv : v.WF) (a b : Nat) (h : a + b < W) :
    (slice v a b).WF ∧ (slice v a b).text = inner v.text a b := by
  have lv := text_length hv
  obtain ⟨h1, h2⟩ := hv
  unfold slice
  rw [Nat.mod_eq_of_lt h]
  split
  · refine ⟨by simp [View.WF]; omega, ?_⟩
    simp [View.text, inner]
    omega
  · rename_i hlt
    have e1 : (v.off + a) % W = v.off + a := Nat.mod_eq_of_lt (by omega)
    have e2 : (v.len + (W - a) + (W - b)) % W = v.len - a - b := by
      have : v.len + (W - a) + (W - b) = (v.len - a - b) + W + W := by omega
      rw [this, Nat.add_mod_right, Nat.add_mod_right, Nat.mod_eq_of_lt (by omega)]
    rw [e1, e2]
    refine ⟨by simp [View.WF]; omega, ?_⟩
    rw [inner, lv]
    simp only [View.text]
    apply List.ext_getElem?
    intro k
    simp only [List.getElem?_take, List.getElem?_drop]
    by_cases q1 : k < v.len - a - b
    · have q2 : a + k < v.len - b := by omega
      have q3 : a + k < v.len := by omega
      simp [q1, q2, q3, Nat.add_assoc]
    · have q2 : ¬ a + k < v.len - b := by omega
      simp [q1, q2]

theorem sSlice_spec (t : List α) (ht : t.length < W) (a b : Nat) (h : a + b < W) : sSlice t a b = inner t a b := by
  unfold sSlice inner
  rw [Nat.mod_eq_of_lt h]
  split
  · symm; simp; omega
  · rename_i hlt
    have e1 : (t.length + (W - b)) % W = t.length - b := by
      have : t.length + (W - b) = (t.length - b) + W := by omega
      rw [this, Nat.add_mod_right, Nat.mod_eq_of_lt (by omega)]
    have e2 : (if b ≠ 0 then sRemove t ((t.length + (W - b)) % W) b else t) = t.take (t.length - b) := by
      split
      · rw [sRemove_eq, e1, cut, List.drop_eq_nil_of_le (by omega)]; simp
      · have : b = 0 := by omega
        subst this; simp
    simp only [e2]
    split
    · rw [sRemove_eq, cut]; simp
    · have : a = 0 := by omega
      subst this; simp

/-- **C13**, everything except slices whose two counts add up to 2^64 or more: for every text and every arguments, `Remove` deletes exactly
`[i, i+n)`, `Substring` keeps exactly it (from `i` to the end for the one argument form), and `Slice` drops the first `a` and last `b`
elements; all resulting views stay inside the original memory.  Missing from the full claim: `a + b ≥ 2^64` in `Slice` (see `C13_fails`). -/
theorem C13_cut_partial (v : View α) (hv : v.WF) (i n a b : Nat) :
    ((substring v i n).WF ∧ (substring v i n).text = (v.text.drop i).take n) ∧
    ((substringFrom v i).WF ∧ (substringFrom v i).text = v.text.drop i) ∧
    sRemove v.text i n = cut v.text i n ∧
    (a + b < W → (slice v a b).WF ∧ (slice v a b).text = inner v.text a b ∧ sSlice v.text a b = inner v.text a b) := by
  have lv := text_length hv
  obtain ⟨e1, w1⟩ := substring_text v hv i n
  obtain ⟨e2, w2⟩ := substringFrom_text v hv i
  refine ⟨⟨w1, e1⟩, ⟨w2, e2⟩, sRemove_eq _ _ _, fun h => ?_⟩
  obtain ⟨h1, h2⟩ := slice_spec v hv a b h
  exact ⟨h1, h2, sSlice_spec _ (by have := hv.1; have := hv.2; omega) a b h⟩

theorem W_eq : W = 18446744073709551616 := by unfold W; rfl

/-- **C13 fails** for `Slice` when the counts wrap: the view moves one element *before* its start (reading memory that does not belong to
it), and the string keeps an element although more was to be removed than it has. -/
theorem C13_fails :
    (∃ (v : View Nat) (a b : Nat), v.WF ∧ a < W ∧ b < W ∧ inner v.text a b = [] ∧ v.text = [2, 3] ∧ (slice v a b).text = [1]) ∧
    (∃ (v : View Nat) (a b : Nat), v.WF ∧ a < W ∧ b < W ∧ ¬ (slice v a b).WF) ∧
    (∃ (t : List Nat) (a b : Nat), a < W ∧ b < W ∧ inner t a b = [] ∧ sSlice t a b ≠ []) := by
  refine ⟨⟨⟨[1, 2, 3], 1, 2⟩, W - 1, 2, ⟨by decide, by rw [W_eq]; decide⟩, by rw [W_eq]; decide, by rw [W_eq]; decide, ?_, by decide, ?_⟩,
    ⟨⟨[1, 2], 0, 2⟩, W - 1, 2, ⟨by decide, by rw [W_eq]; decide⟩, by rw [W_eq]; decide, by rw [W_eq]; decide, ?_⟩,
    ⟨[1, 2, 3], 2, W - 1, by rw [W_eq]; decide, by rw [W_eq]; decide, ?_, ?_⟩⟩
  · simp [inner, View.text]
  · simp [slice, W_eq, View.text]
  · simp [slice, W_eq, View.WF]
  · rw [W_eq]; simp [inner]
  · simp [sSlice, W_eq, sRemove]

example : cut [1, 2, 3, 4, 5] 1 2 = [1, 4, 5] ∧ inner [1, 2, 3, 4, 5] 1 2 = [2, 3] ∧ inner [1, 2, 3] 2 2 = [] := by decide

/-! ## C12 -/

variable [DecidableEq α]

theorem trimStartLoop_spec {s : View α} (hs : s.WF) (v : View α) (hv : v.WF) (n : Nat) (hn : v.len = n) :
    ∃ r, trimStartLoop s v n = some r ∧ r.WF ∧ r.text = v.text.dropWhile (fun c => decide (c ∈ s.text)) := by
  induction n generalizing v with
  | zero => exact ⟨v, rfl, hv, by simp [View.text, hn]⟩
  | succ n ih =>
    obtain ⟨x, q1, q2⟩ := rd_some hv (i := 0) (by omega)
    obtain ⟨r, h1, h2⟩ := indexOf_isSome hs x
    obtain ⟨o1, o2⟩ := hv
    have hhead : v.text = x :: ({ v with off := v.off + 1, len := n } : View α).text := by
      apply List.ext_getElem?
      intro k
      cases k with
      | zero => simpa using q2
      | succ k =>
        simp only [View.text, hn, List.getElem?_cons_succ, List.getElem?_take, List.getElem?_drop]
        by_cases hk : k < n
        · have : k + 1 < n + 1 := by omega
          simp [hk, Nat.add_assoc, Nat.add_comm 1 k]
        · simp [hk]
    cases r with
    | none =>
      refine ⟨v, by simp [trimStartLoop, q1, h1], ⟨o1, o2⟩, ?_⟩
      have : x ∉ s.text := by intro h; simpa using h2.2 h
      rw [hhead]
      simp [List.dropWhile_cons, this]
    | some j =>
      have hx : x ∈ s.text := h2.1 rfl
      obtain ⟨r, p1, p2, p3⟩ := ih { v with off := v.off + 1, len := n } (by simp [View.WF]; omega) rfl
      refine ⟨r, by simp [trimStartLoop, q1, h1, p1], p2, ?_⟩
      rw [hhead, p3]
      simp [List.dropWhile_cons, hx]

omit [DecidableEq α] in
theorem dropWhileEnd_snoc (p : α → Bool) (t : List α) (x : α) :
    dropWhileEnd p (t ++ [x]) = if p x then dropWhileEnd p t else t ++ [x] := by
  unfold dropWhileEnd
  simp only [List.reverse_append, List.reverse_cons, List.reverse_nil, List.nil_append, List.singleton_append, List.dropWhile_cons]
  split <;> simp

theorem trimEndLoop_spec {s : View α} (hs : s.WF) (v : View α) (hv : v.WF) (n : Nat) (hn : v.len = n) :
    ∃ r, trimEndLoop s v n = some r ∧ r.WF ∧ r.text = dropWhileEnd (fun c => decide (c ∈ s.text)) v.text := by
  induction n generalizing v with
  | zero => exact ⟨v, rfl, hv, by simp [View.text, hn, dropWhileEnd]⟩
  | succ n ih =>
    obtain ⟨x, q1, q2⟩ := rd_some hv (i := n) (by omega)
    obtain ⟨r, h1, h2⟩ := indexOf_isSome hs x
    have lv := text_length hv
    obtain ⟨o1, o2⟩ := hv
    have hlast : v.text = ({ v with len := n } : View α).text ++ [x] := by
      have : v.text = v.text.take n ++ v.text.drop n := (List.take_append_drop _ _).symm
      rw [this]
      congr 1
      · simp [View.text, hn, List.take_take]
      · obtain ⟨hl, hx⟩ := List.getElem?_eq_some_iff.1 q2
        rw [List.drop_eq_getElem_cons hl, hx, List.drop_eq_nil_of_le (by omega)]
    cases r with
    | none =>
      refine ⟨v, by simp [trimEndLoop, q1, h1], ⟨o1, o2⟩, ?_⟩
      have : x ∉ s.text := by intro h; simpa using h2.2 h
      rw [hlast, dropWhileEnd_snoc]
      simp [this]
    | some j =>
      have hx : x ∈ s.text := h2.1 rfl
      obtain ⟨r, p1, p2, p3⟩ := ih { v with len := n } (by simp [View.WF]; omega) rfl
      refine ⟨r, by simp [trimEndLoop, q1, h1, p1], p2, ?_⟩
      rw [hlast, dropWhileEnd_snoc, p3]
      simp [hx]

omit [DecidableEq α] in
theorem dropWhile_false (p : α → Bool) (t : List α) (h : ∀ x, p x = false) : t.dropWhile p = t := by
  cases t <;> simp [List.dropWhile_cons, h]

theorem trimStart_spec {v s : View α} (hv : v.WF) (hs : s.WF) :
    ∃ r, trimStart v s = some r ∧ r.WF ∧ r.text = v.text.dropWhile (fun c => decide (c ∈ s.text)) := by
  unfold trimStart
  split
  · rename_i h
    have : s.text = [] := by simp [View.text, h]
    exact ⟨v, rfl, hv, by rw [dropWhile_false]; simp [this]⟩
  · exact trimStartLoop_spec hs v hv _ rfl

theorem trimEnd_spec {v s : View α} (hv : v.WF) (hs : s.WF) :
    ∃ r, trimEnd v s = some r ∧ r.WF ∧ r.text = dropWhileEnd (fun c => decide (c ∈ s.text)) v.text := by
  unfold trimEnd
  split
  · rename_i h
    have : s.text = [] := by simp [View.text, h]
    exact ⟨v, rfl, hv, by rw [dropWhileEnd, dropWhile_false]; simp; simp [this]⟩
  · exact trimEndLoop_spec hs v hv _ rfl

/-- **C12** for views: `TrimStart`/`TrimEnd`/`Trim` remove exactly the longest prefix/suffix/both of characters to trim, and stay in bounds. -/
theorem C12_view_trim (v s : View α) (hv : v.WF) (hs : s.WF) :
    (∃ r, trimStart v s = some r ∧ r.WF ∧ r.text = v.text.dropWhile (fun c => decide (c ∈ s.text))) ∧
    (∃ r, trimEnd v s = some r ∧ r.WF ∧ r.text = dropWhileEnd (fun c => decide (c ∈ s.text)) v.text) ∧
    (∃ r, trim v s = some r ∧ r.WF ∧
      r.text = dropWhileEnd (fun c => decide (c ∈ s.text)) (v.text.dropWhile (fun c => decide (c ∈ s.text)))) := by
  refine ⟨trimStart_spec hv hs, trimEnd_spec hv hs, ?_⟩
  obtain ⟨r, h1, h2, h3⟩ := trimStart_spec hv hs
  obtain ⟨r', g1, g2, g3⟩ := trimEnd_spec h2 hs
  exact ⟨r', by simp [trim, h1, g1], g2, by rw [g3, h3]⟩

theorem sTrimStartCount_spec {s : View α} (hs : s.WF) (t : List α) (n i : Nat) (h : i + n = t.length) :
    ∃ k, sTrimStartCount s t i n = some k ∧ k ≤ t.length ∧ t.drop k = (t.drop i).dropWhile (fun c => decide (c ∈ s.text)) := by
  induction n generalizing i with
  | zero => exact ⟨i, rfl, by omega, by rw [List.drop_eq_nil_of_le (by omega)]; rfl⟩
  | succ n ih =>
    have hi : i < t.length := by omega
    obtain ⟨r, h1, h2⟩ := indexOf_isSome hs t[i]
    have hd := List.drop_eq_getElem_cons hi
    cases r with
    | none =>
      have : t[i] ∉ s.text := by intro h; simpa using h2.2 h
      refine ⟨i, by simp [sTrimStartCount, hi, h1], by omega, ?_⟩
      rw [hd, List.dropWhile_cons, if_neg (by simpa using this)]
    | some j =>
      have : t[i] ∈ s.text := h2.1 rfl
      obtain ⟨k, p1, p2, p3⟩ := ih (i + 1) (by omega)
      refine ⟨k, by simp [sTrimStartCount, hi, h1, p1], p2, ?_⟩
      rw [hd, p3, List.dropWhile_cons, if_pos (by simpa using this)]

theorem sTrimStart_spec {s : View α} (hs : s.WF) (t : List α) :
    sTrimStart t s = some (t.dropWhile (fun c => decide (c ∈ s.text))) := by
  unfold sTrimStart
  split
  · rename_i h
    have : s.text = [] := by simp [View.text, h]
    rw [dropWhile_false]; simp [this]
  · obtain ⟨k, p1, p2, p3⟩ := sTrimStartCount_spec hs t t.length 0 (by omega)
    rw [p1]
    simp only [Option.map_some, sRemove_eq, cut]
    simp at p3
    simp [p3]

theorem sTrimEndLen_spec {s : View α} (hs : s.WF) (t : List α) (n : Nat) (h : n ≤ t.length) :
    ∃ k, sTrimEndLen s t n = some k ∧ k ≤ n ∧ t.take k = dropWhileEnd (fun c => decide (c ∈ s.text)) (t.take n) := by
  induction n with
  | zero => exact ⟨0, rfl, by omega, by simp [dropWhileEnd]⟩
  | succ n ih =>
    have hi : n < t.length := by omega
    obtain ⟨r, h1, h2⟩ := indexOf_isSome hs t[n]
    have e : t.take (n + 1) = t.take n ++ [t[n]] := by simp
    rw [e, dropWhileEnd_snoc]
    cases r with
    | none =>
      have : t[n] ∉ s.text := by intro h; simpa using h2.2 h
      exact ⟨n + 1, by simp [sTrimEndLen, hi, h1], by omega, by simp [this]⟩
    | some j =>
      have : t[n] ∈ s.text := h2.1 rfl
      obtain ⟨k, p1, p2, p3⟩ := ih (by omega)
      exact ⟨k, by simp [sTrimEndLen, hi, h1, p1], by omega, by simp [this, p3]⟩

omit [DecidableEq α] in
theorem dropWhileEnd_head (p : α → Bool) (t : List α) : ∀ x, (dropWhileEnd p t).getLast? = some x → p x = false := by
  intro x h
  unfold dropWhileEnd at h
  rw [List.getLast?_reverse] at h
  have := List.head?_dropWhile_not p t.reverse
  simpa [h] using this

/-- **C12** for strings: exactly when it holds.  `TrimStart` is right for every text.  `TrimEnd` (and hence `Trim`) is right if and only if
the specified result is the unchanged text or the empty text: whenever it has to remove some but not all characters it deletes the wrong ones. -/
theorem C12_string_trim_partial (t : List α) (s : View α) (hs : s.WF) :
    sTrimStart t s = some (t.dropWhile (fun c => decide (c ∈ s.text))) ∧
    (sTrimEnd t s = some (dropWhileEnd (fun c => decide (c ∈ s.text)) t) ↔
      (dropWhileEnd (fun c => decide (c ∈ s.text)) t = t ∨ dropWhileEnd (fun c => decide (c ∈ s.text)) t = [])) := by
  refine ⟨sTrimStart_spec hs t, ?_⟩
  unfold sTrimEnd
  split
  · rename_i h
    have : s.text = [] := by simp [View.text, h]
    have e : dropWhileEnd (fun c => decide (c ∈ s.text)) t = t := by
      rw [dropWhileEnd, dropWhile_false]; simp; simp [this]
    simp [e]
  · obtain ⟨k, p1, p2, p3⟩ := sTrimEndLen_spec hs t t.length (by omega)
    simp only [List.take_length] at p3
    rw [p1]
    simp only [Option.map_some, Option.some.injEq, sRemove_eq]
    rw [← p3]
    have hk : (t.take k).length = k := by simp; omega
    by_cases h0 : k = 0
    · simp [h0]
    · rw [if_neg h0]
      constructor
      · intro h
        left
        refine Classical.byContradiction fun hne => ?_
        have hkl : k < t.length := by
          refine Classical.byContradiction fun hge => hne ?_
          exact List.take_of_length_le (by omega)
        -- the last elements differ: the kept one is not in the set, the last one of `t` is
        have hl : (cut t (k - 1) (t.length - k)).getLast? = t.getLast? := by
          unfold cut
          have : k - 1 + (t.length - k) = t.length - 1 := by omega
          rw [this, List.getLast?_append]
          have : t.drop (t.length - 1) = [t[t.length - 1]] := by
            rw [List.drop_eq_getElem_cons (by omega), List.drop_eq_nil_of_le (by omega)]
          rw [this, List.getLast?_eq_getElem?]
          simp
          rw [List.getLast?_eq_getElem?, List.getElem?_eq_getElem]
        rw [h] at hl
        have h1 : t ≠ [] := by intro hh; simp [hh] at hkl
        have hlast : t.getLast? = some (t.getLast h1) := List.getLast?_eq_some_getLast h1
        have hq := dropWhileEnd_head (fun c => decide (c ∈ s.text)) t (t.getLast h1) (by rw [← p3, hl, hlast])
        -- then nothing is dropped
        have : dropWhileEnd (fun c => decide (c ∈ s.text)) t = t := by
          have e := List.dropLast_concat_getLast h1
          conv => lhs; rw [← e]
          rw [dropWhileEnd_snoc]
          simp only [hq]
          simpa using e
        rw [← p3] at this
        exact hne this
      · rintro (h | h)
        · have hkl : k = t.length := by
            have := congrArg List.length h
            rw [hk] at this; exact this
          rw [h, hkl]; simp [cut]
        · rw [h] at hk; simp at hk; omega

/-- **C12** for `String::Trim`: right from both sides whenever `TrimEnd` is, that is when nothing or everything is to be
removed at the end. -/
theorem C12_string_both_partial (t : List α) (s : View α) (hs : s.WF)
    (h : dropWhileEnd (fun c => decide (c ∈ s.text)) t = t ∨ dropWhileEnd (fun c => decide (c ∈ s.text)) t = []) :
    sTrim t s = some ((dropWhileEnd (fun c => decide (c ∈ s.text)) t).dropWhile (fun c => decide (c ∈ s.text))) := by
  unfold sTrim
  rw [(C12_string_trim_partial t s hs).2.2 h, Option.bind_some]
  exact (C12_string_trim_partial _ s hs).1

/-- a case of it: blanks at the start only -/
theorem C12_string_both_example : dropWhileEnd (fun c => decide (c ∈ (⟨[32], 0, 1⟩ : View Nat).text)) [32, 97, 98] = [32, 97, 98] ∧
    sTrim [32, 97, 98] (⟨[32], 0, 1⟩ : View Nat) = some [97, 98] := by decide

/-- **C12 fails** for `String::TrimEnd` and `String::Trim`: trimming blanks from "ab  " gives "a " instead of "ab". -/
theorem C12_fails :
    ∃ (t : List Nat) (s : View Nat), s.WF ∧ sTrimEnd t s = some [97, 32] ∧ sTrim t s = some [97, 32] ∧
      dropWhileEnd (fun c => decide (c ∈ s.text)) t = [97, 98] := by
  refine ⟨[97, 98, 32, 32], ⟨[32], 0, 1⟩, ⟨by decide, by rw [W_eq]; decide⟩, by decide, by decide, by decide⟩

example : ([32, 97, 32].dropWhile (fun c => decide (c ∈ [32, 9])) = [97, 32]) ∧ dropWhileEnd (fun c => decide (c ∈ [32, 9])) [32, 97, 9, 32] = [32, 97] := by
  decide

#print axioms C13_cut_partial
#print axioms C13_fails
#print axioms C12_view_trim
#print axioms C12_string_trim_partial
#print axioms C12_fails
end Verif.View
