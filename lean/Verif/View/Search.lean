import Verif.View.Lemmas
/-!
# C14 (searching), C27 (equality), C61 (prefix, suffix, containment)
-/
namespace Verif.View
variable {α : Type} [DecidableEq α]

theorem fwdSeq {v s : View α} (hv : v.WF) (hs : s.WF) (h : s.len ≤ v.len) :
    ∃ r, fwd (fun i => eqLoop (fun k => v.rd (i + k)) s.rd 0 s.len) 0 (v.len - s.len + 1) = some r ∧
      IsLeast (Occurs v.text s.text) r := by
  obtain ⟨r, h1, h2⟩ := fwd_spec (fun i => eqLoop (fun k => v.rd (i + k)) s.rd 0 s.len) (Occurs v.text s.text) 0 (v.len - s.len + 1)
    (fun j _ hj => eqLoop_window hv hs (by omega))
  refine ⟨r, h1, h2.congr fun k => ⟨fun h => h.2.2, fun h => ⟨by omega, ?_, h⟩⟩⟩
  have := h.1
  rw [text_length hv, text_length hs] at this
  omega

theorem bwdSeq {v s : View α} (hv : v.WF) (hs : s.WF) (h : s.len ≤ v.len) :
    ∃ r, bwd (fun i => eqLoop (fun k => v.rd (i + k)) s.rd 0 s.len) (v.len - s.len + 1) = some r ∧
      IsGreatest (Occurs v.text s.text) r := by
  obtain ⟨r, h1, h2⟩ := bwd_spec (fun i => eqLoop (fun k => v.rd (i + k)) s.rd 0 s.len) (Occurs v.text s.text) (v.len - s.len + 1)
    (fun j hj => eqLoop_window hv hs (by omega))
  refine ⟨r, h1, h2.congr fun k => ⟨fun h => h.2, fun h => ⟨?_, h⟩⟩⟩
  have := h.1
  rw [text_length hv, text_length hs] at this
  omega

theorem text_ne_nil {s : View α} (hs : s.WF) : s.text ≠ [] ↔ s.len ≠ 0 := by
  rw [← text_length hs]; simp

/-- Search in the whole view. `[]` never matches. -/
theorem indexOfSeq_spec {v s : View α} (hv : v.WF) (hs : s.WF) :
    ∃ r, indexOfSeq v s = some r ∧ IsLeast (fun k => s.text ≠ [] ∧ Occurs v.text s.text k) r := by
  unfold indexOfSeq
  by_cases h0 : s.len = 0
  · refine ⟨none, by simp [h0], fun k hk => (text_ne_nil hs).1 hk.1 h0⟩
  · rw [if_neg h0]
    by_cases h1 : v.len < s.len
    · rw [if_pos h1]
      refine ⟨none, rfl, fun k hk => ?_⟩
      have := hk.2.1
      rw [text_length hv, text_length hs] at this; omega
    · rw [if_neg h1]
      obtain ⟨r, q1, q2⟩ := fwdSeq hv hs (by omega)
      exact ⟨r, q1, q2.congr fun k => ⟨fun h => ⟨(text_ne_nil hs).2 h0, h⟩, fun h => h.2⟩⟩

theorem lastIndexOfSeq_spec {v s : View α} (hv : v.WF) (hs : s.WF) :
    ∃ r, lastIndexOfSeq v s = some r ∧ IsGreatest (fun k => s.text ≠ [] ∧ Occurs v.text s.text k) r := by
  unfold lastIndexOfSeq
  by_cases h0 : s.len = 0
  · refine ⟨none, by simp [h0], fun k hk => (text_ne_nil hs).1 hk.1 h0⟩
  · rw [if_neg h0]
    by_cases h1 : v.len < s.len
    · rw [if_pos h1]
      refine ⟨none, rfl, fun k hk => ?_⟩
      have := hk.2.1
      rw [text_length hv, text_length hs] at this; omega
    · rw [if_neg h1]
      obtain ⟨r, q1, q2⟩ := bwdSeq hv hs (by omega)
      exact ⟨r, q1, q2.congr fun k => ⟨fun h => ⟨(text_ne_nil hs).2 h0, h⟩, fun h => h.2⟩⟩

theorem anyTest {v s : View α} (hv : v.WF) (hs : s.WF) {j : Nat} (hj : j < v.len) :
    ∃ b, ((v.rd j).bind fun c => (indexOf s c).map Option.isSome) = some b ∧ (b = true ↔ ∃ c ∈ s.text, v.text[j]? = some c) := by
  obtain ⟨x, q1, q2⟩ := rd_some hv hj
  obtain ⟨r, h1, h2⟩ := indexOf_isSome hs x
  exact ⟨r.isSome, by simp [q1, h1], by rw [h2, q2]; simp⟩

theorem indexOfAny_spec {v s : View α} (hv : v.WF) (hs : s.WF) :
    ∃ r, indexOfAny v s = some r ∧ IsLeast (fun k => ∃ c ∈ s.text, v.text[k]? = some c) r := by
  unfold indexOfAny
  by_cases h0 : s.len = 0
  · have : s.text = [] := by simpa using (not_congr (text_ne_nil hs)).2 (by simpa using h0)
    exact ⟨none, by simp [h0], fun k hk => by simp [this] at hk⟩
  · rw [if_neg h0]
    obtain ⟨r, q1, q2⟩ := fwd_spec _ _ 0 v.len (fun j _ hj => anyTest hv hs (j := j) (by omega))
    refine ⟨r, q1, q2.congr fun k => ⟨fun h => h.2.2, fun h => ⟨by omega, ?_, h⟩⟩⟩
    obtain ⟨c, _, hc⟩ := h
    have := getElem?_iff hv hc
    omega

theorem lastIndexOfAny_spec {v s : View α} (hv : v.WF) (hs : s.WF) :
    ∃ r, lastIndexOfAny v s = some r ∧ IsGreatest (fun k => ∃ c ∈ s.text, v.text[k]? = some c) r := by
  unfold lastIndexOfAny
  by_cases h0 : s.len = 0
  · have : s.text = [] := by simpa using (not_congr (text_ne_nil hs)).2 (by simpa using h0)
    exact ⟨none, by simp [h0], fun k hk => by simp [this] at hk⟩
  · rw [if_neg h0]
    obtain ⟨r, q1, q2⟩ := bwd_spec _ _ v.len (fun j hj => anyTest hv hs (j := j) hj)
    refine ⟨r, q1, q2.congr fun k => ⟨fun h => h.2, fun h => ⟨?_, h⟩⟩⟩
    obtain ⟨c, _, hc⟩ := h
    exact getElem?_iff hv hc

theorem lastIndexOf_spec {v : View α} (hv : v.WF) (c : α) :
    ∃ r, lastIndexOf v c = some r ∧ IsGreatest (fun k => v.text[k]? = some c) r := by
  obtain ⟨r, h1, h2⟩ := bwd_spec (fun i => (v.rd i).map fun x => decide (x = c)) (fun k => v.text[k]? = some c) v.len
    (fun j hj => by
      obtain ⟨x, q1, q2⟩ := rd_some hv (i := j) (by omega)
      exact ⟨decide (x = c), by simp [q1], by simp [q2]⟩)
  exact ⟨r, h1, h2.congr fun k => ⟨fun h => h.2, fun h => ⟨getElem?_iff hv h, h⟩⟩⟩

omit [DecidableEq α] in
theorem shiftLeast {P Q : Nat → Prop} {i : Nat} {r : Option Nat} (hb : ∀ k, P k → i + k < W)
    (hPQ : ∀ k, P k ↔ Q (i + k)) (hQ : ∀ k, Q k → i ≤ k) (h : IsLeast P r) :
    ∃ r', shift i (some r) = some r' ∧ IsLeast Q r' := by
  cases r with
  | none =>
    refine ⟨none, rfl, fun k hk => ?_⟩
    have : Q (i + (k - i)) := by rw [Nat.add_sub_cancel' (hQ k hk)]; exact hk
    exact h _ ((hPQ _).2 this)
  | some k =>
    refine ⟨some (i + k), by simp [shift, Nat.mod_eq_of_lt (hb k h.1)], (hPQ k).1 h.1, fun j hj hq => ?_⟩
    have h1 := hQ j hq
    have : Q (i + (j - i)) := by rw [Nat.add_sub_cancel' h1]; exact hq
    exact h.2 (j - i) (by omega) ((hPQ _).2 this)

omit [DecidableEq α] in
theorem shiftGreatest {P Q : Nat → Prop} {i : Nat} {r : Option Nat} (hb : ∀ k, P k → i + k < W)
    (hPQ : ∀ k, P k ↔ Q (i + k)) (hQ : ∀ k, Q k → i ≤ k) (h : IsGreatest P r) :
    ∃ r', shift i (some r) = some r' ∧ IsGreatest Q r' := by
  cases r with
  | none =>
    refine ⟨none, rfl, fun k hk => ?_⟩
    have : Q (i + (k - i)) := by rw [Nat.add_sub_cancel' (hQ k hk)]; exact hk
    exact h _ ((hPQ _).2 this)
  | some k =>
    refine ⟨some (i + k), by simp [shift, Nat.mod_eq_of_lt (hb k h.1)], (hPQ k).1 h.1, fun j hj hq => ?_⟩
    have h1 := hQ j hq
    have : Q (i + (j - i)) := by rw [Nat.add_sub_cancel' h1]; exact hq
    exact h.2 (j - i) (by omega) ((hPQ _).2 this)

omit [DecidableEq α] in
/-- positions of the window `[i, i+n)` -/
theorem window_get (t : List α) (i n k : Nat) (c : α) :
    ((t.drop i).take n)[k]? = some c ↔ (k < n ∧ t[i + k]? = some c) := by
  simp only [List.getElem?_take, List.getElem?_drop]
  split <;> simp_all <;> omega

omit [DecidableEq α] in
theorem window_occurs (t s : List α) (hs : s ≠ []) (i n k : Nat) :
    Occurs ((t.drop i).take n) s k ↔ (k + s.length ≤ n ∧ Occurs t s (i + k)) := by
  have h0 : 0 < s.length := List.length_pos_iff.2 hs
  simp only [Occurs, List.length_take, List.length_drop]
  constructor
  · rintro ⟨h1, h2⟩
    refine ⟨by omega, by omega, ?_⟩
    rw [List.drop_take, List.drop_drop, List.take_take, Nat.min_eq_left (by omega)] at h2
    exact h2
  · rintro ⟨h1, h2, h3⟩
    refine ⟨by omega, ?_⟩
    rw [List.drop_take, List.drop_drop, List.take_take, Nat.min_eq_left (by omega)]
    exact h3

omit [DecidableEq α] in
theorem nil_of_len {v : View α} (h : v.len = 0) : v.text = [] := by simp [View.text, h]

/-- **C14** (characters). For every view, character, start index and count: `IndexOf` is the least index in `[i, i+n)` holding the
character, `LastIndexOf` the greatest, the invalid index iff there is none; no memory outside the view is read (the result is never
undefined).  The default count is `2^64-1`, the whole-view forms are the first two lines. -/
theorem C14_indexOf_char (v : View α) (hv : v.WF) (c : α) (i n : Nat) :
    (∃ r, indexOf v c = some r ∧ IsLeast (fun k => v.text[k]? = some c) r) ∧
    (∃ r, lastIndexOf v c = some r ∧ IsGreatest (fun k => v.text[k]? = some c) r) ∧
    (∃ r, indexOfIn v c i n = some r ∧ IsLeast (fun k => i ≤ k ∧ k < i + n ∧ v.text[k]? = some c) r) ∧
    (∃ r, lastIndexOfIn v c i n = some r ∧ IsGreatest (fun k => i ≤ k ∧ k < i + n ∧ v.text[k]? = some c) r) := by
  refine ⟨indexOf_spec hv c, lastIndexOf_spec hv c, ?_, ?_⟩
  · unfold indexOfIn
    by_cases h0 : v.len = 0
    · exact ⟨none, by simp [h0], fun k hk => by simp [nil_of_len h0] at hk⟩
    · rw [if_neg h0]
      obtain ⟨e, hw⟩ := substring_text v hv i n
      obtain ⟨r, h1, h2⟩ := indexOf_spec hw c
      rw [h1]
      rw [e] at h2
      refine shiftLeast (fun k hk => ?_) (fun k => ?_) (fun k hk => hk.1) h2
      · have := getElem?_iff hv ((window_get _ _ _ _ _).1 hk).2
        have := hv.1; have := hv.2; omega
      · rw [window_get]; constructor
        · intro h; exact ⟨by omega, by omega, h.2⟩
        · intro h; exact ⟨by omega, h.2.2⟩
  · unfold lastIndexOfIn
    by_cases h0 : v.len = 0
    · exact ⟨none, by simp [h0], fun k hk => by simp [nil_of_len h0] at hk⟩
    · rw [if_neg h0]
      obtain ⟨e, hw⟩ := substring_text v hv i n
      obtain ⟨r, h1, h2⟩ := lastIndexOf_spec hw c
      rw [h1]
      rw [e] at h2
      refine shiftGreatest (fun k hk => ?_) (fun k => ?_) (fun k hk => hk.1) h2
      · have := getElem?_iff hv ((window_get _ _ _ _ _).1 hk).2
        have := hv.1; have := hv.2; omega
      · rw [window_get]; constructor
        · intro h; exact ⟨by omega, by omega, h.2⟩
        · intro h; exact ⟨by omega, h.2.2⟩

/-- **C14** (substrings). The occurrence lies entirely inside `[i, i+n)`; the empty string never matches. -/
theorem C14_indexOf_string (v s : View α) (hv : v.WF) (hs : s.WF) (i n : Nat) :
    (∃ r, indexOfSeq v s = some r ∧ IsLeast (fun k => s.text ≠ [] ∧ Occurs v.text s.text k) r) ∧
    (∃ r, lastIndexOfSeq v s = some r ∧ IsGreatest (fun k => s.text ≠ [] ∧ Occurs v.text s.text k) r) ∧
    (∃ r, indexOfSeqIn v s i n = some r ∧
      IsLeast (fun k => s.text ≠ [] ∧ i ≤ k ∧ k + s.text.length ≤ i + n ∧ Occurs v.text s.text k) r) ∧
    (∃ r, lastIndexOfSeqIn v s i n = some r ∧
      IsGreatest (fun k => s.text ≠ [] ∧ i ≤ k ∧ k + s.text.length ≤ i + n ∧ Occurs v.text s.text k) r) := by
  refine ⟨indexOfSeq_spec hv hs, lastIndexOfSeq_spec hv hs, ?_, ?_⟩
  · unfold indexOfSeqIn
    by_cases hs0 : s.len = 0
    · exact ⟨none, by simp [hs0], fun k hk => hk.1 (nil_of_len hs0)⟩
    have hsn := (text_ne_nil hs).2 hs0
    by_cases h0 : v.len = 0
    · refine ⟨none, by simp [h0, hs0], fun k hk => ?_⟩
      have := hk.2.2.2.1
      rw [text_length hv, text_length hs] at this; omega
    rw [if_neg hs0, if_neg h0]
    obtain ⟨e, hw⟩ := substring_text v hv i n
    obtain ⟨r, h1, h2⟩ := indexOfSeq_spec hw hs
    rw [h1]
    rw [e] at h2
    have key : ∀ k, (s.text ≠ [] ∧ Occurs ((v.text.drop i).take n) s.text k) ↔ (k + s.text.length ≤ n ∧ Occurs v.text s.text (i + k)) :=
      fun k => ⟨fun h => (window_occurs _ _ hsn _ _ _).1 h.2, fun h => ⟨hsn, (window_occurs _ _ hsn _ _ _).2 h⟩⟩
    refine shiftLeast (fun k hk => ?_) (fun k => ?_) (fun k hk => hk.2.1) h2
    · have := ((key k).1 hk).2.1
      rw [text_length hv] at this
      have := hv.1; have := hv.2; omega
    · rw [key]; constructor
      · intro h; exact ⟨hsn, by omega, by omega, h.2⟩
      · intro h; exact ⟨by omega, h.2.2.2⟩
  · unfold lastIndexOfSeqIn
    by_cases h0 : v.len = 0
    · refine ⟨none, by simp [h0], fun k hk => ?_⟩
      have h1 := hk.2.2.2.1
      have h2 := (text_ne_nil hs).1 hk.1
      rw [text_length hv, text_length hs] at h1; omega
    by_cases hs0 : s.len = 0
    · exact ⟨none, by simp [hs0], fun k hk => hk.1 (nil_of_len hs0)⟩
    have hsn := (text_ne_nil hs).2 hs0
    rw [if_neg h0, if_neg hs0]
    obtain ⟨e, hw⟩ := substring_text v hv i n
    obtain ⟨r, h1, h2⟩ := lastIndexOfSeq_spec hw hs
    rw [h1]
    rw [e] at h2
    have key : ∀ k, (s.text ≠ [] ∧ Occurs ((v.text.drop i).take n) s.text k) ↔ (k + s.text.length ≤ n ∧ Occurs v.text s.text (i + k)) :=
      fun k => ⟨fun h => (window_occurs _ _ hsn _ _ _).1 h.2, fun h => ⟨hsn, (window_occurs _ _ hsn _ _ _).2 h⟩⟩
    refine shiftGreatest (fun k hk => ?_) (fun k => ?_) (fun k hk => hk.2.1) h2
    · have := ((key k).1 hk).2.1
      rw [text_length hv] at this
      have := hv.1; have := hv.2; omega
    · rw [key]; constructor
      · intro h; exact ⟨hsn, by omega, by omega, h.2⟩
      · intro h; exact ⟨by omega, h.2.2.2⟩

/-- **C14** (any of a set of characters). -/
theorem C14_indexOf_any (v s : View α) (hv : v.WF) (hs : s.WF) (i n : Nat) :
    (∃ r, indexOfAny v s = some r ∧ IsLeast (fun k => ∃ c ∈ s.text, v.text[k]? = some c) r) ∧
    (∃ r, lastIndexOfAny v s = some r ∧ IsGreatest (fun k => ∃ c ∈ s.text, v.text[k]? = some c) r) ∧
    (∃ r, indexOfAnyIn v s i n = some r ∧ IsLeast (fun k => i ≤ k ∧ k < i + n ∧ ∃ c ∈ s.text, v.text[k]? = some c) r) ∧
    (∃ r, lastIndexOfAnyIn v s i n = some r ∧ IsGreatest (fun k => i ≤ k ∧ k < i + n ∧ ∃ c ∈ s.text, v.text[k]? = some c) r) := by
  have key : ∀ k, (∃ c ∈ s.text, ((v.text.drop i).take n)[k]? = some c) ↔ (k < n ∧ ∃ c ∈ s.text, v.text[i + k]? = some c) := by
    intro k
    constructor
    · rintro ⟨c, h1, h2⟩
      have := (window_get _ _ _ _ _).1 h2
      exact ⟨this.1, c, h1, this.2⟩
    · rintro ⟨h, c, h1, h2⟩
      exact ⟨c, h1, (window_get _ _ _ _ _).2 ⟨h, h2⟩⟩
  have bound : ∀ k, (∃ c ∈ s.text, ((v.text.drop i).take n)[k]? = some c) → i + k < W := by
    intro k hk
    obtain ⟨_, c, _, hc⟩ := (key k).1 hk
    have := getElem?_iff hv hc
    have := hv.1; have := hv.2; omega
  have tr : ∀ k, (∃ c ∈ s.text, ((v.text.drop i).take n)[k]? = some c) ↔
      (i ≤ i + k ∧ i + k < i + n ∧ ∃ c ∈ s.text, v.text[i + k]? = some c) := by
    intro k
    rw [key]; constructor
    · intro h; exact ⟨by omega, by omega, h.2⟩
    · intro h; exact ⟨by omega, h.2.2⟩
  refine ⟨indexOfAny_spec hv hs, lastIndexOfAny_spec hv hs, ?_, ?_⟩
  · unfold indexOfAnyIn
    by_cases h0 : v.len = 0
    · exact ⟨none, by simp [h0], fun k hk => by simp [nil_of_len h0] at hk⟩
    by_cases hs0 : s.len = 0
    · exact ⟨none, by simp [hs0], fun k hk => by simp [nil_of_len hs0] at hk⟩
    rw [if_neg h0, if_neg hs0]
    obtain ⟨e, hw⟩ := substring_text v hv i n
    obtain ⟨r, h1, h2⟩ := indexOfAny_spec hw hs
    rw [h1]
    rw [e] at h2
    exact shiftLeast bound tr (fun k hk => hk.1) h2
  · unfold lastIndexOfAnyIn
    by_cases hs0 : s.len = 0
    · exact ⟨none, by simp [hs0], fun k hk => by simp [nil_of_len hs0] at hk⟩
    rw [if_neg hs0]
    obtain ⟨e, hw⟩ := substring_text v hv i n
    obtain ⟨r, h1, h2⟩ := lastIndexOfAny_spec hw hs
    rw [h1]
    rw [e] at h2
    exact shiftGreatest bound tr (fun k hk => hk.1) h2

/-- "xxabcabd" seen through a window that drops "xx" -/
def exV : View Nat := ⟨[120, 120, 97, 98, 99, 97, 98, 100, 33], 2, 6⟩
example : exV.WF ∧ exV.text = [97, 98, 99, 97, 98, 100] := by refine ⟨⟨by decide, ?_⟩, by decide⟩; unfold W; decide
example : indexOfSeq exV ⟨[97, 98], 0, 2⟩ = some (some 0) ∧ lastIndexOfSeq exV ⟨[97, 98], 0, 2⟩ = some (some 3) := by decide
example : indexOf exV 33 = some none := by decide

/-! ## C27 -/

/-- **C27**, first half: two views (spans, string views) compare equal exactly when they have the same elements; nothing outside them is read. -/
theorem C27_equal_partial (v w : View α) (hv : v.WF) (hw : w.WF) : eq v w = some (decide (v.text = w.text)) := by
  unfold eq
  by_cases h : v.len = w.len
  · obtain ⟨r, h1, h2⟩ := eqLoop_eq hv hw h
    rw [if_neg (by omega), h1]
    congr 1
    rw [Bool.eq_iff_iff, h2]; simp
  · rw [if_pos h]
    congr 1
    symm
    simp
    intro he
    have := congrArg List.length he
    rw [text_length hv, text_length hw] at this
    exact h this

/-- `!=` of string views is the negation of `==`. -/
theorem C27_stringView_ne (v w : View α) (hv : v.WF) (hw : w.WF) : neView v w = some (!decide (v.text = w.text)) := by
  have := C27_equal_partial v w hv hw
  unfold eq at this
  unfold neView
  split at this
  · rename_i h
    rw [if_pos h]
    simp at this
    simp [this]
  · rename_i h
    rw [if_neg h, this]; rfl

theorem neLoop_spec (a b : Nat → Option α) (x y : Nat → α) (i n : Nat)
    (ha : ∀ j, i ≤ j → j < i + n → a j = some (x j)) (hb : ∀ j, i ≤ j → j < i + n → b j = some (y j)) :
    ∃ r, neLoop a b i n = some r ∧ (r = true ↔ ∃ j, i ≤ j ∧ j < i + n ∧ x j = y j) := by
  induction n generalizing i with
  | zero => exact ⟨false, rfl, by simp; intro j h1 h2; omega⟩
  | succ n ih =>
    have h1 := ha i (by omega) (by omega)
    have h2 := hb i (by omega) (by omega)
    by_cases hxy : x i = y i
    · exact ⟨true, by simp [neLoop, h1, h2, hxy], by simp; exact ⟨i, by omega, by omega, hxy⟩⟩
    · obtain ⟨r, hr, hs⟩ := ih (i + 1) (fun j _ _ => ha j (by omega) (by omega)) (fun j _ _ => hb j (by omega) (by omega))
      refine ⟨r, by simp [neLoop, h1, h2, hxy, hr], hs.trans ⟨fun ⟨j, q1, q2, q3⟩ => ⟨j, by omega, by omega, q3⟩, fun ⟨j, q1, q2, q3⟩ => ?_⟩⟩
      by_cases hj : j = i
      · subst hj; exact absurd q3 hxy
      · exact ⟨j, by omega, by omega, q3⟩

/-- What `Span::operator!=` really computes: the lengths differ, or *some position holds equal elements*. -/
theorem C27_span_ne_meaning (v w : View α) (hv : v.WF) (hw : w.WF) :
    ∃ r, neSpan v w = some r ∧
      (r = true ↔ v.text.length ≠ w.text.length ∨ ∃ (k : Nat) (x : α), v.text[k]? = some x ∧ w.text[k]? = some x) := by
  unfold neSpan
  rw [text_length hv, text_length hw]
  by_cases h : v.len = w.len
  · rw [if_neg (by omega)]
    cases hn : v.len with
    | zero =>
      refine ⟨false, rfl, ?_⟩
      simp [nil_of_len hn, ← h, hn]
    | succ m =>
      have lv := text_length hv
      have lw := text_length hw
      have h0 : 0 < v.text.length := by omega
      have h0' : 0 < w.text.length := by omega
      obtain ⟨r, hr, hs⟩ := neLoop_spec v.rd w.rd (fun j => v.text.getD j v.text[0]) (fun j => w.text.getD j w.text[0]) 0 v.len
        (fun j _ hj => by
          rw [rd_eq (by omega)]
          have : j < v.text.length := by omega
          simp [this, List.getD])
        (fun j _ hj => by
          rw [rd_eq (by omega)]
          have : j < w.text.length := by omega
          simp [this, List.getD])
      rw [hn] at hr
      refine ⟨r, hr, hs.trans ?_⟩
      simp only [← h, hn, ne_eq, not_true_eq_false, false_or]
      constructor
      · rintro ⟨j, _, q2, q3⟩
        have q4 : j < v.text.length := by omega
        have q5 : j < w.text.length := by omega
        simp [List.getD, q4, q5] at q3
        exact ⟨j, v.text[j], by simp [q4], by simp [q5, q3]⟩
      · rintro ⟨j, x, q1, q2⟩
        have q3 := getElem?_iff hv q1
        exact ⟨j, by omega, by omega, by simp [List.getD, q1, q2]⟩
  · rw [if_pos h]
    exact ⟨true, rfl, by simp [h]⟩

/-- **C27 fails** for `Span::operator!=`: two equal one-element spans are reported as different, and two different two-element spans
with no common position are reported as not different. -/
theorem C27_fails :
    (∃ v w : View Nat, v.WF ∧ w.WF ∧ v.text = w.text ∧ eq v w = some true ∧ neSpan v w = some true) ∧
    (∃ v w : View Nat, v.WF ∧ w.WF ∧ v.text ≠ w.text ∧ eq v w = some false ∧ neSpan v w = some false) := by
  refine ⟨⟨⟨[1], 0, 1⟩, ⟨[1], 0, 1⟩, ⟨by decide, ?_⟩, ⟨by decide, ?_⟩, by decide, by decide, by decide⟩,
    ⟨⟨[1, 2], 0, 2⟩, ⟨[3, 4], 0, 2⟩, ⟨by decide, ?_⟩, ⟨by decide, ?_⟩, by decide, by decide, by decide⟩⟩ <;> (unfold W; decide)

/-! ## C61 -/

/-- **C61.** `StartsWith`/`EndsWith` decide exactly prefix/suffix (the empty string is both), `Contains` decides exactly membership /
non-empty infix / common element. -/
theorem C61_prefix_suffix_contains (v s : View α) (hv : v.WF) (hs : s.WF) :
    startsWith v s = some (decide (s.text <+: v.text)) ∧
    endsWith v s = some (decide (s.text <:+ v.text)) ∧
    (∀ c, contains v c = some (decide (c ∈ v.text))) ∧
    (∃ b, containsSeq v s = some b ∧ (b = true ↔ s.text ≠ [] ∧ s.text <:+: v.text)) ∧
    (∃ b, containsAny v s = some b ∧ (b = true ↔ ∃ c ∈ s.text, c ∈ v.text)) := by
  have lv := text_length hv
  have ls := text_length hs
  refine ⟨?_, ?_, fun c => ?_, ?_, ?_⟩
  · unfold startsWith
    by_cases h : v.len < s.len
    · rw [if_pos h]; congr 1; symm; simp
      intro hp; have := hp.length_le; omega
    · rw [if_neg h]
      obtain ⟨e, hw⟩ := substring_text v hv 0 s.len
      rw [C27_equal_partial _ _ hw hs, e]
      congr 1
      rw [Bool.eq_iff_iff]; simp
      rw [← ls]
      rw [List.prefix_iff_eq_take]; exact eq_comm
  · unfold endsWith
    by_cases h : v.len < s.len
    · rw [if_pos h]; congr 1; symm; simp
      intro hp; have := hp.length_le; omega
    · rw [if_neg h]
      obtain ⟨e, hw⟩ := substring_text v hv (v.len - s.len) s.len
      rw [C27_equal_partial _ _ hw hs, e]
      congr 1
      rw [Bool.eq_iff_iff]; simp
      rw [List.suffix_iff_eq_drop, lv, ls, List.take_of_length_le (by simp; omega)]; exact eq_comm
  · obtain ⟨r, h1, h2⟩ := indexOf_isSome hv c
    simp [contains, h1]
    rw [Bool.eq_iff_iff, h2]; simp
  · obtain ⟨r, h1, h2⟩ := indexOfSeq_spec hv hs
    refine ⟨r.isSome, by simp [containsSeq, h1], h2.isSome.trans ?_⟩
    constructor
    · rintro ⟨k, q1, q2, q3⟩
      refine ⟨q1, v.text.take k, v.text.drop (k + s.text.length), ?_⟩
      rw [← q3]
      simp only [List.length_take, List.length_drop, Nat.min_eq_left (show s.text.length ≤ v.text.length - k by omega)]
      rw [List.append_assoc, ← List.drop_drop, List.take_append_drop, List.take_append_drop]
    · rintro ⟨q1, a, b, q2⟩
      refine ⟨a.length, q1, ?_, ?_⟩
      · rw [← q2]; simp
      · rw [← q2]; simp
  · obtain ⟨r, h1, h2⟩ := indexOfAny_spec hv hs
    refine ⟨r.isSome, by simp [containsAny, h1], h2.isSome.trans ?_⟩
    constructor
    · rintro ⟨k, c, q1, q2⟩
      exact ⟨c, q1, List.mem_iff_getElem?.2 ⟨k, q2⟩⟩
    · rintro ⟨c, q1, q2⟩
      obtain ⟨k, hk⟩ := List.mem_iff_getElem?.1 q2
      exact ⟨k, c, q1, hk⟩

example : startsWith exV ⟨[97, 98], 0, 2⟩ = some true ∧ endsWith exV ⟨[98, 100], 0, 2⟩ = some true ∧ endsWith exV ⟨[], 0, 0⟩ = some true := by decide

#print axioms C14_indexOf_char
#print axioms C14_indexOf_string
#print axioms C14_indexOf_any
#print axioms C27_equal_partial
#print axioms C27_stringView_ne
#print axioms C27_span_ne_meaning
#print axioms C27_fails
#print axioms C61_prefix_suffix_contains
end Verif.View
