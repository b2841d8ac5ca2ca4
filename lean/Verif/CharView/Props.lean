import Verif.CharView.Code
/-!
# C97 – searching, splitting and trimming encoded text works on characters

`StringView` (include/YY/Base/Strings/StringView.h 93-754; the specialisation for `char` 756-1475 has the same functions) compares code units. The model of the functions is `Verif/View/Model.lean`.
Here the units are those of a text of characters, and the results are stated for the characters.
-/
namespace Verif.CharView
open Verif.View
open Verif.Utf (Spec.Scalar)

variable {C : Code}

theorem least_map (h : C.Sync) {t : List Nat} (ht : C.Ok t) {P Q : Nat → Prop} (hP : ∀ k, P k → k ≤ t.length) (e : ∀ b, Q b ↔ ∃ k, P k ∧ b = C.at t k) {r : Option Nat} (hr : IsLeast Q r) :
    ∃ r', r = r'.map (C.at t) ∧ IsLeast P r' := by
  cases r with
  | none => exact ⟨none, rfl, fun k hk => hr _ ((e _).2 ⟨k, hk, rfl⟩)⟩
  | some b =>
    obtain ⟨h1, h2⟩ := hr
    obtain ⟨k, hk, rfl⟩ := (e b).1 h1
    refine ⟨some k, rfl, hk, fun j hj hq => h2 (C.at t j) ?_ ((e _).2 ⟨j, hq, rfl⟩)⟩
    exact (at_lt_iff h ht (hP j hq) (hP k hk)).2 hj

theorem greatest_map (h : C.Sync) {t : List Nat} (ht : C.Ok t) {P Q : Nat → Prop} (hP : ∀ k, P k → k ≤ t.length) (e : ∀ b, Q b ↔ ∃ k, P k ∧ b = C.at t k) {r : Option Nat} (hr : IsGreatest Q r) :
    ∃ r', r = r'.map (C.at t) ∧ IsGreatest P r' := by
  cases r with
  | none => exact ⟨none, rfl, fun k hk => hr _ ((e _).2 ⟨k, hk, rfl⟩)⟩
  | some b =>
    obtain ⟨h1, h2⟩ := hr
    obtain ⟨k, hk, rfl⟩ := (e b).1 h1
    refine ⟨some k, rfl, hk, fun j hj hq => h2 (C.at t j) ?_ ((e _).2 ⟨j, hq, rfl⟩)⟩
    exact (at_lt_iff h ht (hP k hk) (hP j hq)).2 hj

theorem occurs_le {t s : List Nat} {k : Nat} (h : Occurs t s k) : k ≤ t.length := by have := h.1; omega

theorem text_inj (h : C.Sync) {t u : List Nat} (ht : C.Ok t) (hu : C.Ok u) (e : C.text t = C.text u) : t = u := by
  obtain ⟨t2, g, k⟩ := prefix_align h hu ht (Q := []) (by simpa using e)
  cases t2 with
  | nil => simpa using g
  | cons c t2 =>
    exact absurd k.symm (text_ne_nil h (t := c :: t2) (fun x hx => ht x (by rw [g]; simp at hx ⊢; rcases hx with hx | hx <;> simp [hx])) (by simp))

/-- **C97** (strings). In UTF-8, UTF-16 and UTF-32 of either byte order, for every text and every string to be found: `IndexOf` gives the index of the first unit of the first occurrence as characters,
`LastIndexOf` of the last one, `IndexOf` with a start index (also one inside a character) of the first one from there on; `Contains`, `StartsWith`, `EndsWith` and `==` say what they say of the characters. No match begins or ends inside a character. -/
theorem C97_strings (h : C.Sync) (v s : View Nat) (hv : v.WF) (hs : s.WF) (t u : List Nat) (ht : C.Ok t) (hu : C.Ok u) (h0 : u ≠ []) (ev : v.text = C.text t) (es : s.text = C.text u) :
    (∃ r, indexOfSeq v s = some (r.map (C.at t)) ∧ IsLeast (Occurs t u) r) ∧
    (∃ r, lastIndexOfSeq v s = some (r.map (C.at t)) ∧ IsGreatest (Occurs t u) r) ∧
    (∀ i, ∃ r, indexOfSeqIn v s i (W - 1) = some (r.map (C.at t)) ∧ IsLeast (fun k => i ≤ C.at t k ∧ Occurs t u k) r) ∧
    (∃ b, containsSeq v s = some b ∧ (b = true ↔ u <:+: t)) ∧
    (∃ b, startsWith v s = some b ∧ (b = true ↔ u <+: t)) ∧
    (∃ b, endsWith v s = some b ∧ (b = true ↔ u <:+ t)) ∧
    (∃ b, eq v s = some b ∧ (b = true ↔ t = u)) := by
  obtain ⟨⟨r1, a1, a2⟩, ⟨r2, b1, b2⟩, _⟩ := C14_indexOf_string v s hv hs 0 0
  have key : ∀ b, (s.text ≠ [] ∧ Occurs v.text s.text b) ↔ ∃ k, Occurs t u k ∧ b = C.at t k := by
    intro b
    rw [ev, es, occurs_iff h hu ht h0]
    exact ⟨fun x => x.2, fun x => ⟨text_ne_nil h hu h0, x⟩⟩
  have infx : u <:+: t ↔ s.text <:+: v.text := by
    rw [ev, es]
    constructor
    · rintro ⟨a, b, rfl⟩; exact ⟨C.text a, C.text b, by simp⟩
    · rintro ⟨a, b, e⟩
      obtain ⟨t1, t2, g, _⟩ := align h hu ht h0 e.symm
      exact ⟨t1, t2, g.symm⟩
  obtain ⟨c1, c2, _, ⟨b, c3, c4⟩, _⟩ := C61_prefix_suffix_contains v s hv hs
  refine ⟨?_, ?_, fun i => ?_, ⟨b, c3, ?_⟩, ⟨_, c1, ?_⟩, ⟨_, c2, ?_⟩, ⟨_, C27_equal_partial v s hv hs, ?_⟩⟩
  · obtain ⟨r, rfl, g⟩ := least_map h ht (fun k hk => occurs_le hk) key a2
    exact ⟨r, a1, g⟩
  · obtain ⟨r, rfl, g⟩ := greatest_map h ht (fun k hk => occurs_le hk) key b2
    exact ⟨r, b1, g⟩
  · obtain ⟨r, g1, g2⟩ := search_string hv hs (by rw [es]; exact text_ne_nil h hu h0) i
    have key' : ∀ b, (i ≤ b ∧ Occurs v.text s.text b) ↔ ∃ k, (i ≤ C.at t k ∧ Occurs t u k) ∧ b = C.at t k := by
      intro b
      rw [ev, es, occurs_iff h hu ht h0]
      constructor
      · rintro ⟨q, k, hk, rfl⟩; exact ⟨k, ⟨q, hk⟩, rfl⟩
      · rintro ⟨k, ⟨q, hk⟩, rfl⟩; exact ⟨q, k, hk, rfl⟩
    obtain ⟨r, rfl, g⟩ := least_map h ht (P := fun k => i ≤ C.at t k ∧ Occurs t u k) (fun k hk => occurs_le hk.2) key' g2
    exact ⟨r, g1, g⟩
  · rw [c4, infx]
    exact ⟨fun x => x.2, fun x => ⟨by rw [es]; exact text_ne_nil h hu h0, x⟩⟩
  · rw [decide_eq_true_iff, ev, es]
    constructor
    · rintro ⟨Q, e⟩
      obtain ⟨t2, g, _⟩ := prefix_align h hu ht e.symm
      exact ⟨t2, g.symm⟩
    · rintro ⟨x, rfl⟩; exact ⟨C.text x, by simp⟩
  · rw [decide_eq_true_iff, ev, es]
    constructor
    · rintro ⟨P, e⟩
      obtain ⟨t1, t2, g, _, g2⟩ := align h hu ht h0 (P := P) (Q := []) (by simpa using e.symm)
      have : t2 = [] := by
        cases t2 with
        | nil => rfl
        | cons c t2 =>
          have := text_ne_nil h (t := c :: t2) (fun x hx => ht x (by rw [g]; simp at hx ⊢; rcases hx with hx | hx <;> simp [hx])) (by simp)
          exact absurd g2.symm this
      subst this
      exact ⟨t1, by simpa using g.symm⟩
    · rintro ⟨x, rfl⟩; exact ⟨C.text x, by simp⟩
  · rw [decide_eq_true_iff, ev, es]
    exact ⟨fun e => text_inj h ht hu e, fun e => by rw [e]⟩

theorem join_align (h : C.Sync) {u : List Nat} (hu : C.Ok u) (h0 : u ≠ []) (ps : List (List Nat)) (hps : ps ≠ []) {t : List Nat} (ht : C.Ok t) (e : C.text t = join (C.text u) ps) :
    ∃ qs, ps = qs.map C.text ∧ t = join u qs := by
  induction ps generalizing t with
  | nil => exact absurd rfl hps
  | cons p ps ih =>
    cases ps with
    | nil => exact ⟨[t], by simpa [join] using e.symm, rfl⟩
    | cons q ps =>
      obtain ⟨t1, t2, g1, g2, g3⟩ := align h hu ht h0 e
      have ht2 : C.Ok t2 := fun c hc => ht c (by rw [g1]; simp [hc])
      obtain ⟨qs, k1, k2⟩ := ih (by simp) ht2 g3.symm
      cases qs with
      | nil => simp at k1
      | cons a qs => exact ⟨t1 :: a :: qs, by rw [k1, g2]; rfl, by rw [g1, k2]; simp [join]⟩

/-- **C97** (splitting). For every text and every separator of characters the pieces are texts of characters, and joined with the separator they give the text (or the text without one
separator at its end, `C15_fails`); no piece contains the separator. -/
theorem C97_split_partial (h : C.Sync) (v s : View Nat) (hv : v.WF) (hs : s.WF) (t u : List Nat) (ht : C.Ok t) (hu : C.Ok u) (h0 : u ≠ []) (ev : v.text = C.text t) (es : s.text = C.text u) :
    ∃ ps qs, splitLoop (splitFirstSeq v s) v.len 0 (v.len + 1) = some ps ∧ ps.map View.text = qs.map C.text ∧ (∀ q ∈ qs, C.Ok q ∧ ¬ u <:+: q) ∧ (t = join u qs ∨ t = join u qs ++ u) := by
  have hne := text_ne_nil h hu h0
  obtain ⟨ps, g1, g2, g3⟩ := (C15_split_partial v hv).2 s hs (by rw [es]; exact hne)
  have hps : ps.map View.text ≠ [] := by
    intro e0
    rw [List.map_eq_nil_iff] at e0
    subst e0
    simp only [splitLoop] at g1
    cases hf : splitFirstSeq v s 0 with
    | none => simp [hf] at g1
    | some x =>
      simp only [hf] at g1
      split at g1
      · cases hr : splitLoop (splitFirstSeq v s) v.len x.2 v.len <;> simp [hr] at g1
      · simp at g1
  have fin : ∀ t', C.Ok t' → C.text t' = join (C.text u) (ps.map View.text) → ∃ qs, ps.map View.text = qs.map C.text ∧ (∀ q ∈ qs, ¬ u <:+: q) ∧ t' = join u qs := by
    intro t' ht' e'
    obtain ⟨qs, k1, k2⟩ := join_align h hu h0 _ hps ht' e'
    refine ⟨qs, k1, fun q hq hi => ?_, k2⟩
    have hm : C.text q ∈ ps.map View.text := by rw [k1]; exact List.mem_map_of_mem hq
    obtain ⟨p, hp, ep⟩ := List.mem_map.1 hm
    refine g2 p hp ?_
    rw [ep, es]
    obtain ⟨a, b, rfl⟩ := hi
    exact ⟨C.text a, C.text b, by simp⟩
  have okj : ∀ qs : List (List Nat), C.Ok (join u qs) → ∀ q ∈ qs, C.Ok q := by
    intro qs
    induction qs with
    | nil => simp
    | cons a qs ih =>
      cases qs with
      | nil => intro ho q hq; simp at hq; subst hq; exact ho
      | cons b qs =>
        intro ho q hq
        have ho' : C.Ok (a ++ u ++ join u (b :: qs)) := ho
        rcases List.mem_cons.1 hq with rfl | hq
        · exact fun c hc => ho' c (by simp [hc])
        · exact ih (fun c hc => ho' c (by simp [hc])) q hq
  rcases g3 with g3 | g3
  · rw [ev, es] at g3
    obtain ⟨qs, k1, k2, k3⟩ := fin t ht g3
    exact ⟨ps, qs, g1, k1, fun q hq => ⟨okj qs (by rw [← k3]; exact ht) q hq, k2 q hq⟩, .inl k3⟩
  · rw [ev, es] at g3
    obtain ⟨t1, t2, m1, m2, m3⟩ := align h hu ht h0 (P := join (C.text u) (ps.map View.text)) (Q := []) (by simpa using g3)
    have ht1 : C.Ok t1 := fun c hc => ht c (by rw [m1]; simp [hc])
    have ht2 : C.Ok t2 := fun c hc => ht c (by rw [m1]; simp [hc])
    have : t2 = [] := by
      cases t2 with
      | nil => rfl
      | cons c t2 => exact absurd m3.symm (text_ne_nil h ht2 (by simp))
    subst this
    obtain ⟨qs, k1, k2, k3⟩ := fin t1 ht1 m2.symm
    exact ⟨ps, qs, g1, k1, fun q hq => ⟨okj qs (by rw [← k3]; exact ht1) q hq, k2 q hq⟩, .inr (by rw [m1, ← k3]; simp)⟩

/-! ### sets of characters -/

/-- every character of the set is one unit (ASCII in UTF-8, the BMP in UTF-16) -/
def Code.Single (C : Code) (S : List Nat) : Prop := ∀ c ∈ S, ∃ x, C.enc c = [x]

theorem mem_text {S : List Nat} {x : Nat} (h1 : C.Single S) : x ∈ C.text S ↔ ∃ c ∈ S, C.enc c = [x] := by
  simp only [Code.text, List.mem_flatMap]
  constructor
  · rintro ⟨c, hc, hx⟩
    obtain ⟨y, hy⟩ := h1 c hc
    rw [hy] at hx
    simp at hx
    exact ⟨c, hc, by rw [hy, hx]⟩
  · rintro ⟨c, hc, hx⟩; exact ⟨c, hc, by simp [hx]⟩

theorem dropWhile_text (h : C.Sync) {S t : List Nat} (hS : C.Ok S) (h1 : C.Single S) (ht : C.Ok t) :
    (C.text t).dropWhile (fun x => decide (x ∈ C.text S)) = C.text (t.dropWhile (fun c => decide (c ∈ S))) := by
  induction t with
  | nil => rfl
  | cons c t ih =>
    obtain ⟨l, r, e, _, _⟩ := h.shape c (ht c (by simp))
    by_cases hc : c ∈ S
    · obtain ⟨x, hx⟩ := h1 c hc
      have hm : x ∈ C.text S := (mem_text h1).2 ⟨c, hc, hx⟩
      simp only [text_cons, hx, List.singleton_append, List.dropWhile_cons, hm, hc, decide_true, if_true]
      exact ih ht.tail
    · have hm : l ∉ C.text S := by
        intro hm
        obtain ⟨d, hd, hl⟩ := (mem_text h1).1 hm
        have : d = c := h.pf d c (hS d hd) (ht c (by simp)) (by rw [hl, e]; simp)
        exact hc (this ▸ hd)
      simp only [text_cons, e, List.cons_append, List.dropWhile_cons, hm, hc, decide_false, Bool.false_eq_true, if_false]

theorem dropWhileEnd_text (h : C.Sync) {S t : List Nat} (hS : C.Ok S) (h1 : C.Single S) (ht : C.Ok t) :
    dropWhileEnd (fun x => decide (x ∈ C.text S)) (C.text t) = C.text (dropWhileEnd (fun c => decide (c ∈ S)) t) := by
  have gen : ∀ n, ∀ t : List Nat, t.length = n → C.Ok t →
      dropWhileEnd (fun x => decide (x ∈ C.text S)) (C.text t) = C.text (dropWhileEnd (fun c => decide (c ∈ S)) t) := by
    intro n
    induction n with
    | zero => intro t hl _; rw [List.length_eq_zero_iff.1 hl]; rfl
    | succ n ih =>
      intro t hl ht
      rcases List.eq_nil_or_concat t with rfl | ⟨t, c, rfl⟩
      · simp at hl
      · simp only [List.concat_eq_append] at hl ht ⊢
        have hto : C.Ok t := fun x hx => ht x (by simp [hx])
        have hco : C.ok c := ht c (by simp)
        obtain ⟨l, r, e, hl', hr⟩ := h.shape c hco
        rw [dropWhileEnd_snoc]
        by_cases hc : c ∈ S
        · obtain ⟨x, hx⟩ := h1 c hc
          have hm : x ∈ C.text S := (mem_text h1).2 ⟨c, hc, hx⟩
          simp only [text_append, text_cons, text_nil, hx, List.append_nil, dropWhileEnd_snoc, hm, hc, decide_true, if_true]
          exact ih t (by simpa using hl) hto
        · simp only [hc, decide_false, Bool.false_eq_true, if_false, text_append, text_cons, text_nil, List.append_nil]
          rcases List.eq_nil_or_concat r with rfl | ⟨r', y, rfl⟩
          · have hm : l ∉ C.text S := by
              intro hm
              obtain ⟨d, hd, hl⟩ := (mem_text h1).1 hm
              have : d = c := h.pf d c (hS d hd) hco (by rw [hl, e]; exact List.prefix_refl _)
              exact hc (this ▸ hd)
            rw [e, dropWhileEnd_snoc]
            simp [hm]
          · have hm : y ∉ C.text S := by
              intro hm
              obtain ⟨d, hd, hl⟩ := (mem_text h1).1 hm
              obtain ⟨l2, r2, e2, hl2, _⟩ := h.shape d (hS d hd)
              rw [hl] at e2
              simp only [List.cons.injEq] at e2
              exact hr y (by simp) (by rw [e2.1]; exact hl2)
            rw [e, List.concat_eq_append, ← List.cons_append, ← List.append_assoc, dropWhileEnd_snoc]
            simp [hm]
  exact gen _ t rfl ht

theorem any_iff (h : C.Sync) {S t : List Nat} (hS : C.Ok S) (h1 : C.Single S) (ht : C.Ok t) (b : Nat) :
    (∃ x ∈ C.text S, (C.text t)[b]? = some x) ↔ ∃ k, (∃ c ∈ S, t[k]? = some c) ∧ b = C.at t k := by
  constructor
  · rintro ⟨x, hx, hb⟩
    obtain ⟨c, hc, e⟩ := (mem_text h1).1 hx
    have : C.text [c] = [x] := by simp [e]
    obtain ⟨k, hk, rfl⟩ := (occurs_iff h (s := [c]) (fun y hy => by simp at hy; rw [hy]; exact hS c hc) ht (by simp) b).1 (by rw [this, occurs_single]; exact hb)
    exact ⟨k, ⟨c, hc, (occurs_single _ _ _).1 hk⟩, rfl⟩
  · rintro ⟨k, ⟨c, hc, hk⟩, rfl⟩
    obtain ⟨x, e⟩ := h1 c hc
    have this : C.text [c] = [x] := by simp [e]
    refine ⟨x, (mem_text h1).2 ⟨c, hc, e⟩, ?_⟩
    rw [← occurs_single, ← this]
    exact (occurs_iff h (s := [c]) (fun y hy => by simp at hy; rw [hy]; exact hS c hc) ht (by simp) _).2 ⟨k, (occurs_single _ _ _).2 hk, rfl⟩

/-- **C97** (sets of characters). If every character of the set is one unit (ASCII in UTF-8, the BMP in UTF-16, everything in UTF-32): `TrimStart`, `TrimEnd`, `Trim` remove exactly the characters of the
set at the ends, `IndexOfAny` and `LastIndexOfAny` find the first and the last character of the set, `IndexOf` and `LastIndexOf` of a unit that is a character find that character.
Missing: sets with characters of several units (`C97_set_fails`). -/
theorem C97_sets_partial (h : C.Sync) (v s : View Nat) (hv : v.WF) (hs : s.WF) (t S : List Nat) (ht : C.Ok t) (hS : C.Ok S) (h1 : C.Single S) (ev : v.text = C.text t) (es : s.text = C.text S) :
    (∃ r, trimStart v s = some r ∧ r.text = C.text (t.dropWhile (fun c => decide (c ∈ S)))) ∧
    (∃ r, trimEnd v s = some r ∧ r.text = C.text (dropWhileEnd (fun c => decide (c ∈ S)) t)) ∧
    (∃ r, trim v s = some r ∧ r.text = C.text (dropWhileEnd (fun c => decide (c ∈ S)) (t.dropWhile (fun c => decide (c ∈ S))))) ∧
    (∃ r, indexOfAny v s = some (r.map (C.at t)) ∧ IsLeast (fun k => ∃ c ∈ S, t[k]? = some c) r) ∧
    (∃ r, lastIndexOfAny v s = some (r.map (C.at t)) ∧ IsGreatest (fun k => ∃ c ∈ S, t[k]? = some c) r) ∧
    (∀ c ∈ S, ∀ x, C.enc c = [x] →
      (∃ r, indexOf v x = some (r.map (C.at t)) ∧ IsLeast (fun k => t[k]? = some c) r) ∧
      (∃ r, lastIndexOf v x = some (r.map (C.at t)) ∧ IsGreatest (fun k => t[k]? = some c) r)) := by
  obtain ⟨⟨r1, a1, _, a2⟩, ⟨r2, b1, _, b2⟩, ⟨r3, c1, _, c2⟩⟩ := C12_view_trim v s hv hs
  rw [ev, es] at a2 b2 c2
  have hbound : ∀ (k : Nat) (S : List Nat), (∃ c ∈ S, t[k]? = some c) → k ≤ t.length := by
    rintro k S ⟨c, _, hk⟩
    obtain ⟨hl, _⟩ := List.getElem?_eq_some_iff.1 hk
    omega
  have hdw : C.Ok (t.dropWhile (fun c => decide (c ∈ S))) := fun c hc => ht c ((List.dropWhile_sublist _).subset hc)
  refine ⟨⟨r1, a1, by rw [a2, dropWhile_text h hS h1 ht]⟩, ⟨r2, b1, by rw [b2, dropWhileEnd_text h hS h1 ht]⟩,
    ⟨r3, c1, by rw [c2, dropWhile_text h hS h1 ht, dropWhileEnd_text h hS h1 hdw]⟩, ?_, ?_, ?_⟩
  · obtain ⟨⟨r, g1, g2⟩, _⟩ := C14_indexOf_any v s hv hs 0 0
    rw [ev, es] at g2
    obtain ⟨r, rfl, g⟩ := least_map h ht (fun k hk => hbound k S hk) (any_iff h hS h1 ht) g2
    exact ⟨r, g1, g⟩
  · obtain ⟨_, ⟨r, g1, g2⟩, _⟩ := C14_indexOf_any v s hv hs 0 0
    rw [ev, es] at g2
    obtain ⟨r, rfl, g⟩ := greatest_map h ht (fun k hk => hbound k S hk) (any_iff h hS h1 ht) g2
    exact ⟨r, g1, g⟩
  · intro c hc x hx
    have key : ∀ b, (v.text[b]? = some x) ↔ ∃ k, t[k]? = some c ∧ b = C.at t k := by
      intro b
      have := any_iff h (S := [c]) (fun y hy => by simp at hy; rw [hy]; exact hS c hc) (fun y hy => by simp at hy; rw [hy]; exact ⟨x, hx⟩) ht b
      simpa [hx, ev] using this
    have hb : ∀ k, t[k]? = some c → k ≤ t.length := fun k hk => hbound k [c] ⟨c, by simp, hk⟩
    obtain ⟨⟨r, g1, g2⟩, ⟨r', g3, g4⟩, _⟩ := C14_indexOf_char v hv x 0 0
    obtain ⟨r, rfl, g⟩ := least_map h ht hb key g2
    obtain ⟨r', rfl, g'⟩ := greatest_map h ht hb key g4
    exact ⟨⟨r, g1, g⟩, ⟨r', g3, g'⟩⟩

/-- the codes of `u8StringView`, `u16StringView` (LE, BE), `u32StringView` (LE, BE) -/
theorem C97_codes : utf8.Sync ∧ utf16.Sync ∧ utf32.Sync ∧ utf16BE.Sync ∧ utf32BE.Sync ∧
    (∀ S : List Nat, (∀ c ∈ S, c < 0x80) → utf8.Single S) ∧ (∀ S : List Nat, (∀ c ∈ S, c < 0x10000) → utf16.Single S ∧ utf16BE.Single S) ∧ (∀ S, utf32.Single S ∧ utf32BE.Single S) := by
  refine ⟨utf8_sync, utf16_sync, utf32_sync, utf16BE_sync, utf32BE_sync, fun S h c hc => ⟨c, ?_⟩, fun S h => ⟨fun c hc => ⟨c, ?_⟩, fun c hc => ⟨Verif.Utf.Spec.rev16 c, ?_⟩⟩, fun S => ⟨fun c _ => ⟨c, rfl⟩, fun c _ => ⟨_, rfl⟩⟩⟩
  · have := h c hc; simp [utf8, Verif.Utf.Spec.utf8, this]
  · have := h c hc; simp [utf16, Verif.Utf.Spec.utf16, this]
  · have := h c hc; simp [utf16BE, Verif.Utf.Spec.utf16, this]

/-- **C97 fails** for sets of characters of several units. UTF-8: trimming 'é' (C3 A9) from "èx" (C3 A8 78) takes away half of the 'è', what is left is no text; `IndexOfAny` finds 'é' in "è".
UTF-16: trimming U+1F600 from U+1F601 leaves a lone low surrogate. -/
theorem C97_set_fails :
    (∃ r, trimStart ⟨utf8.text [0xE8, 0x78], 0, 3⟩ ⟨utf8.text [0xE9], 0, 2⟩ = some r ∧ r.text = [0xA8, 0x78] ∧ ¬ ∃ u, utf8.Ok u ∧ utf8.text u = r.text) ∧
    indexOfAny ⟨utf8.text [0xE8], 0, 2⟩ ⟨utf8.text [0xE9], 0, 2⟩ = some (some 0) ∧
    (∃ r, trimStart ⟨utf16.text [0x1F601], 0, 2⟩ ⟨utf16.text [0x1F600], 0, 2⟩ = some r ∧ r.text = [0xDE01] ∧ ¬ ∃ u, utf16.Ok u ∧ utf16.text u = r.text) := by
  have no : ∀ (C : Code), C.Sync → ∀ x xs, ¬ C.lead x → ¬ ∃ u, C.Ok u ∧ C.text u = x :: xs := by
    rintro C h x xs hx ⟨u, hu, e⟩
    cases u with
    | nil => simp at e
    | cons c u =>
      obtain ⟨l, r, q, hl, _⟩ := h.shape c (hu c (by simp))
      simp only [text_cons, q, List.cons_append, List.cons.injEq] at e
      exact hx (e.1 ▸ hl)
  refine ⟨⟨⟨utf8.text [0xE8, 0x78], 1, 2⟩, by decide, by decide, ?_⟩, by decide, ⟨⟨utf16.text [0x1F601], 1, 1⟩, by decide, by decide, ?_⟩⟩
  · have e : (⟨utf8.text [0xE8, 0x78], 1, 2⟩ : View Nat).text = [0xA8, 0x78] := by decide
    rw [e]
    exact no _ utf8_sync _ _ (by simp [utf8])
  · have e : (⟨utf16.text [0x1F601], 1, 1⟩ : View Nat).text = [0xDE01] := by decide
    rw [e]
    exact no _ utf16_sync _ _ (by simp [utf16, Verif.Utf.Spec.isLow])

/-- **C97 fails** for `aStringView` in a double byte code page: the backslash is found inside the character 95 5C ('表' in Shift-JIS) and the text is split there; a string of two characters is found
across characters. -/
theorem C97_ansi_fails :
    dbcs.Ok [0x955C] ∧ dbcs.Ok [0x5C] ∧ indexOfSeq ⟨dbcs.text [0x955C], 0, 2⟩ ⟨dbcs.text [0x5C], 0, 1⟩ = some (some 1) ∧ ¬ [0x5C] <:+: [0x955C] ∧
    splitFirst ⟨dbcs.text [0x955C], 0, 2⟩ 0x5C 0 = some (⟨dbcs.text [0x955C], 0, 1⟩, 2) ∧
    dbcs.Ok [0x8281, 0x8281] ∧ dbcs.Ok [0x8182] ∧ indexOfSeq ⟨dbcs.text [0x8281, 0x8281], 0, 4⟩ ⟨dbcs.text [0x8182], 0, 2⟩ = some (some 1) ∧ ¬ [0x8182] <:+: [0x8281, 0x8281] := by
  refine ⟨?_, ?_, by decide, by decide, ?_, ?_, ?_, by decide, by decide⟩
  · intro c hc; simp at hc; subst hc; simp [dbcs]
  · intro c hc; simp at hc; subst hc; simp [dbcs]
  · unfold splitFirst indexOfIn shift W; decide
  · intro c hc; simp at hc; subst hc; simp [dbcs]
  · intro c hc; simp at hc; subst hc; simp [dbcs]

/-- "aé😀é" in UTF-8: 'é' as a string is found at units 1 and 7, the start index 2 is inside the first 'é'; the hypotheses of the theorems hold -/
theorem C97_example :
    utf8.Ok [0x61, 0xE9, 0x1F600, 0xE9] ∧ (⟨utf8.text [0x61, 0xE9, 0x1F600, 0xE9], 0, 9⟩ : View Nat).WF ∧
    utf8.text [0x61, 0xE9, 0x1F600, 0xE9] = [0x61, 0xC3, 0xA9, 0xF0, 0x9F, 0x98, 0x80, 0xC3, 0xA9] ∧
    indexOfSeq ⟨utf8.text [0x61, 0xE9, 0x1F600, 0xE9], 0, 9⟩ ⟨utf8.text [0xE9], 0, 2⟩ = some (some 1) ∧
    lastIndexOfSeq ⟨utf8.text [0x61, 0xE9, 0x1F600, 0xE9], 0, 9⟩ ⟨utf8.text [0xE9], 0, 2⟩ = some (some 7) ∧
    utf8.at [0x61, 0xE9, 0x1F600, 0xE9] 3 = 7 := by
  refine ⟨?_, ⟨by decide, ?_⟩, by decide, by decide, by decide, by decide⟩
  · intro c hc
    simp at hc
    rcases hc with rfl | rfl | rfl | rfl <;> simp [utf8, Verif.Utf.Spec.Scalar]
  · unfold W; decide

end Verif.CharView
