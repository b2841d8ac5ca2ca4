import Verif.View.Model
/-! Specification vocabulary and helper lemmas for the views. -/
namespace Verif.View
variable {α : Type}

/-! ## Specification vocabulary -/

/-- The text (sequence of elements) that a view denotes. -/
def View.text (v : View α) : List α := (v.mem.drop v.off).take v.len

/-- The view lies inside its memory block, and the block is smaller than the address space. -/
def View.WF (v : View α) : Prop := v.off + v.len ≤ v.mem.length ∧ v.mem.length < W

/-- `s` occurs in `t` at position `k`. -/
def Occurs (t s : List α) (k : Nat) : Prop := k + s.length ≤ t.length ∧ (t.drop k).take s.length = s

/-- `r` is the least `k` with `P k`, or `none` if there is none. -/
def IsLeast (P : Nat → Prop) : Option Nat → Prop
  | none => ∀ k, ¬ P k
  | some k => P k ∧ ∀ j, j < k → ¬ P j

/-- `r` is the greatest `k` with `P k`, or `none` if there is none. -/
def IsGreatest (P : Nat → Prop) : Option Nat → Prop
  | none => ∀ k, ¬ P k
  | some k => P k ∧ ∀ j, k < j → ¬ P j

/-! ## Lemmas -/

theorem W_pos : 1 < W := by unfold W; omega

theorem text_length {v : View α} (h : v.WF) : v.text.length = v.len := by
  obtain ⟨h1, _⟩ := h
  simp [View.text]; omega

theorem rd_eq {v : View α} {i : Nat} (hi : i < v.len) : v.rd i = v.text[i]? := by
  simp [View.rd, View.text, List.getElem?_take, hi]

theorem rd_some {v : View α} (h : v.WF) {i : Nat} (hi : i < v.len) : ∃ x, v.rd i = some x ∧ v.text[i]? = some x := by
  have hl := text_length h
  have : i < v.text.length := by omega
  exact ⟨v.text[i], by rw [rd_eq hi]; simp [this], by simp [this]⟩

theorem fwd_spec (p : Nat → Option Bool) (P : Nat → Prop) (i n : Nat)
    (h : ∀ j, i ≤ j → j < i + n → ∃ b, p j = some b ∧ (b = true ↔ P j)) :
    ∃ r, fwd p i n = some r ∧ IsLeast (fun k => i ≤ k ∧ k < i + n ∧ P k) r := by
  induction n generalizing i with
  | zero => exact ⟨none, rfl, fun k hk => by omega⟩
  | succ n ih =>
    obtain ⟨b, hb, hP⟩ := h i (by omega) (by omega)
    cases b with
    | true =>
      refine ⟨some i, by simp [fwd, hb], ⟨by omega, by omega, hP.1 rfl⟩, fun j hj hq => by omega⟩
    | false =>
      obtain ⟨r, hr, hs⟩ := ih (i + 1) (fun j h1 h2 => h j (by omega) (by omega))
      have hnP : ¬ P i := fun hp => by simpa using hP.2 hp
      refine ⟨r, by simp [fwd, hb, hr], ?_⟩
      cases r with
      | none =>
        intro k ⟨h1, h2, h3⟩
        by_cases hk : k = i
        · subst hk; exact hnP h3
        · exact hs k ⟨by omega, by omega, h3⟩
      | some r =>
        obtain ⟨⟨q1, q2, q3⟩, q4⟩ := hs
        refine ⟨⟨by omega, by omega, q3⟩, fun k hk ⟨h1, h2, h3⟩ => ?_⟩
        by_cases hk' : k = i
        · subst hk'; exact hnP h3
        · exact q4 k hk ⟨by omega, by omega, h3⟩

theorem bwd_spec (p : Nat → Option Bool) (P : Nat → Prop) (n : Nat)
    (h : ∀ j, j < n → ∃ b, p j = some b ∧ (b = true ↔ P j)) :
    ∃ r, bwd p n = some r ∧ IsGreatest (fun k => k < n ∧ P k) r := by
  induction n with
  | zero => exact ⟨none, rfl, fun k hk => by omega⟩
  | succ n ih =>
    obtain ⟨b, hb, hP⟩ := h n (by omega)
    cases b with
    | true => exact ⟨some n, by simp [bwd, hb], ⟨by omega, hP.1 rfl⟩, fun j hj hq => by omega⟩
    | false =>
      obtain ⟨r, hr, hs⟩ := ih (fun j h1 => h j (by omega))
      have hnP : ¬ P n := fun hp => by simpa using hP.2 hp
      refine ⟨r, by simp [bwd, hb, hr], ?_⟩
      cases r with
      | none =>
        intro k ⟨h1, h3⟩
        by_cases hk : k = n
        · subst hk; exact hnP h3
        · exact hs k ⟨by omega, h3⟩
      | some r =>
        obtain ⟨⟨q1, q3⟩, q4⟩ := hs
        refine ⟨⟨by omega, q3⟩, fun k hk ⟨h1, h3⟩ => ?_⟩
        by_cases hk' : k = n
        · subst hk'; exact hnP h3
        · exact q4 k hk ⟨by omega, h3⟩

theorem IsLeast.congr {P Q : Nat → Prop} (h : ∀ k, P k ↔ Q k) {r} : IsLeast P r → IsLeast Q r := by
  have : P = Q := funext fun k => propext (h k)
  rw [this]; exact id

theorem IsGreatest.congr {P Q : Nat → Prop} (h : ∀ k, P k ↔ Q k) {r} : IsGreatest P r → IsGreatest Q r := by
  have : P = Q := funext fun k => propext (h k)
  rw [this]; exact id

theorem IsLeast.isSome {P : Nat → Prop} {r} (h : IsLeast P r) : r.isSome = true ↔ ∃ k, P k := by
  cases r with
  | none => simp; exact h
  | some k => simp; exact ⟨k, h.1⟩

variable [DecidableEq α]

theorem eqLoop_spec (a b : Nat → Option α) (x y : Nat → α) (i n : Nat)
    (ha : ∀ j, i ≤ j → j < i + n → a j = some (x j)) (hb : ∀ j, i ≤ j → j < i + n → b j = some (y j)) :
    ∃ r, eqLoop a b i n = some r ∧ (r = true ↔ ∀ j, i ≤ j → j < i + n → x j = y j) := by
  induction n generalizing i with
  | zero => exact ⟨true, rfl, by simp; intro j h1 h2; omega⟩
  | succ n ih =>
    have h1 := ha i (by omega) (by omega)
    have h2 := hb i (by omega) (by omega)
    by_cases hxy : x i = y i
    · obtain ⟨r, hr, hs⟩ := ih (i + 1) (fun j _ _ => ha j (by omega) (by omega)) (fun j _ _ => hb j (by omega) (by omega))
      refine ⟨r, by simp [eqLoop, h1, h2, hxy, hr], hs.trans ⟨fun h j q1 q2 => ?_, fun h j q1 q2 => h j (by omega) (by omega)⟩⟩
      by_cases hj : j = i
      · subst hj; exact hxy
      · exact h j (by omega) (by omega)
    · exact ⟨false, by simp [eqLoop, h1, h2, hxy], by simp; exact ⟨i, by omega, by omega, hxy⟩⟩

/-- comparing a window of `v` with the whole of `s` -/
theorem eqLoop_window {v s : View α} (hv : v.WF) (hs : s.WF) {i : Nat} (hi : i + s.len ≤ v.len) :
    ∃ r, eqLoop (fun k => v.rd (i + k)) s.rd 0 s.len = some r ∧ (r = true ↔ Occurs v.text s.text i) := by
  have lv := text_length hv
  have ls := text_length hs
  cases hn : s.len with
  | zero =>
    refine ⟨true, rfl, ?_⟩
    have : s.text = [] := List.eq_nil_of_length_eq_zero (by omega)
    simp [Occurs, this, lv]; omega
  | succ m =>
    have h0 : 0 < v.text.length := by omega
    have h0' : 0 < s.text.length := by omega
    obtain ⟨r, hr, hs'⟩ := eqLoop_spec (fun k => v.rd (i + k)) s.rd (fun j => v.text.getD (i + j) v.text[0])
      (fun j => s.text.getD j s.text[0]) 0 s.len
      (fun j _ hj => by
        show v.rd (i + j) = _
        rw [rd_eq (by omega)]
        have : i + j < v.text.length := by omega
        simp [this, List.getD])
      (fun j _ hj => by
        rw [rd_eq (by omega)]
        have : j < s.text.length := by omega
        simp [this, List.getD])
    rw [hn] at hr
    refine ⟨r, hr, hs'.trans ⟨fun h => ⟨by omega, ?_⟩, fun h j _ hj => ?_⟩⟩
    · apply List.ext_getElem?
      intro k
      by_cases hk : k < s.len
      · have := h k (by omega) (by omega)
        have q1 : i + k < v.text.length := by omega
        have q2 : k < s.text.length := by omega
        simp [List.getD, q1, q2] at this
        simp [q2, List.getElem?_take, q1, this]
      · have q2 : ¬ k < s.text.length := by omega
        simp only [List.getElem?_take, q2, if_false]
        rw [List.getElem?_eq_none (by omega)]
    · have q1 : i + j < v.text.length := by omega
      have q2 : j < s.text.length := by omega
      have := congrArg (·[j]?) h.2
      simp [List.getElem?_take, q2, q1] at this
      simp [List.getD, q1, q2, this]

theorem eqLoop_eq {v s : View α} (hv : v.WF) (hs : s.WF) (hl : v.len = s.len) :
    ∃ r, eqLoop v.rd s.rd 0 v.len = some r ∧ (r = true ↔ v.text = s.text) := by
  obtain ⟨r, h1, h2⟩ := eqLoop_window hv hs (i := 0) (by omega)
  simp only [Nat.zero_add] at h1
  refine ⟨r, by rw [hl]; exact h1, h2.trans ?_⟩
  have lv := text_length hv
  have ls := text_length hs
  constructor
  · intro h
    have := h.2
    simp at this
    rw [← this, List.take_of_length_le (by omega)]
  · intro h
    exact ⟨by omega, by simp [h]⟩

omit [DecidableEq α] in
theorem getElem?_iff {v : View α} (hv : v.WF) {k : Nat} {c : α} : v.text[k]? = some c → k < v.len := by
  intro h
  have := (List.getElem?_eq_some_iff.1 h).1
  rw [text_length hv] at this; exact this

theorem indexOf_spec {v : View α} (hv : v.WF) (c : α) :
    ∃ r, indexOf v c = some r ∧ IsLeast (fun k => v.text[k]? = some c) r := by
  obtain ⟨r, h1, h2⟩ := fwd_spec (fun i => (v.rd i).map fun x => decide (x = c)) (fun k => v.text[k]? = some c) 0 v.len
    (fun j _ hj => by
      obtain ⟨x, q1, q2⟩ := rd_some hv (i := j) (by omega)
      exact ⟨decide (x = c), by simp [q1], by simp [q2]⟩)
  exact ⟨r, h1, h2.congr fun k => ⟨fun h => h.2.2, fun h => ⟨by omega, by have := getElem?_iff hv h; omega, h⟩⟩⟩

theorem indexOf_isSome {v : View α} (hv : v.WF) (c : α) :
    ∃ r, indexOf v c = some r ∧ (r.isSome = true ↔ c ∈ v.text) := by
  obtain ⟨r, h1, h2⟩ := indexOf_spec hv c
  exact ⟨r, h1, h2.isSome.trans (List.mem_iff_getElem?).symm⟩

/-! substrings -/

omit [DecidableEq α] in
theorem substring_text (v : View α) (hv : v.WF) (i n : Nat) :
    (substring v i n).text = (v.text.drop i).take n ∧ (substring v i n).WF := by
  obtain ⟨h1, h2⟩ := hv
  unfold substring
  split
  · refine ⟨?_, by simp [View.WF]; omega⟩
    simp only [View.text]
    apply List.ext_getElem?
    intro k
    simp only [List.getElem?_take, List.getElem?_drop]
    by_cases q1 : k < n <;> by_cases q2 : k < v.len - i <;> simp [q1, q2, Nat.add_assoc] <;> grind
  · refine ⟨?_, by simp [View.WF]; omega⟩
    simp [View.text]
    right; omega

omit [DecidableEq α] in
theorem substringFrom_text (v : View α) (hv : v.WF) (i : Nat) :
    (substringFrom v i).text = v.text.drop i ∧ (substringFrom v i).WF := by
  obtain ⟨h1, h2⟩ := hv
  unfold substringFrom
  split
  · refine ⟨?_, by simp [View.WF]; omega⟩
    simp only [View.text]
    apply List.ext_getElem?
    intro k
    simp only [List.getElem?_take, List.getElem?_drop]
    by_cases q2 : k < v.len - i <;> simp [q2, Nat.add_assoc] <;> grind
  · refine ⟨?_, by simp [View.WF]; omega⟩
    simp [View.text]; omega

end Verif.View
