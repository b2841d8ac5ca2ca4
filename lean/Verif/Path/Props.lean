import Verif.Path.Lemmas

namespace Verif.Path
open Verif.View

/-! ### The root -/

/-- through the `k`-th separator -/
def upto (win : Bool) : Nat → List Ch → List Ch
  | 0, _ => []
  | _ + 1, [] => []
  | k + 1, c :: u => c :: upto win (if sep win c then k else k + 1) u

theorem upto_zero (win u) : upto win 0 u = [] := by cases u <;> rfl

theorem upto_len (win k u) : (upto win k u).length ≤ u.length := by
  induction u generalizing k with
  | nil => cases k <;> simp [upto]
  | cons c u ih => cases k with
    | zero => simp [upto]
    | succ k => simp [upto]; exact ih _

theorem upto_take (win k u) : u.take (upto win k u).length = upto win k u := by
  induction u generalizing k with
  | nil => cases k <;> simp [upto]
  | cons c u ih => cases k with
    | zero => simp [upto]
    | succ k => simp [upto]; exact ih _

theorem skipLoop_eq {win} {v : View Ch} (hv : v.WF) : ∀ (n i skip : Nat), i + n = v.len →
    skipLoop win v i skip n = some (i + (upto win skip (v.text.drop i)).length)
  | 0, i, skip, h => by
    have : v.text.drop i = [] := List.drop_eq_nil_of_le (by rw [text_length hv]; omega)
    rw [this]
    cases skip <;> simp [skipLoop, upto]
  | n + 1, i, 0, h => by simp [skipLoop, upto_zero]
  | n + 1, i, skip + 1, h => by
    obtain ⟨c, u, h1, h2⟩ := rd_drop hv (show i < v.len by omega)
    unfold skipLoop
    rw [h2]
    dsimp only
    rw [skipLoop_eq hv n (i + 1) _ (by omega), h1]
    have : v.text.drop (i + 1) = u := by rw [← List.drop_drop, h1]; rfl
    rw [this]
    simp only [upto, List.length_cons]
    congr 1; omega

theorem upto_succ (win k u) : (Plain win u ∧ upto win (k + 1) u = u) ∨
    (∃ a s rest, Plain win a ∧ Sep win s ∧ u = a ++ s :: rest ∧ upto win (k + 1) u = a ++ s :: upto win k rest) := by
  induction u with
  | nil => exact .inl ⟨(by intro c h; cases h), rfl⟩
  | cons c u ih =>
    by_cases hc : sep win c = true
    · exact .inr ⟨[], c, u, (by intro x h; cases h), sep_iff.1 hc, rfl, by simp [upto, hc]⟩
    · have e : upto win (k + 1) (c :: u) = c :: upto win (k + 1) u := by
        unfold upto; rw [if_neg hc]; cases u <;> rfl
      rcases ih with ⟨h1, h2⟩ | ⟨a, s, rest, h1, h2, h3, h4⟩
      · refine .inl ⟨?_, by rw [e, h2]⟩
        intro x hx
        rcases List.mem_cons.1 hx with rfl | h
        · exact fun h => hc (sep_iff.2 h)
        · exact h1 x h
      · refine .inr ⟨c :: a, s, rest, ?_, h2, by rw [h3]; rfl, by rw [e, h4]; rfl⟩
        intro x hx
        rcases List.mem_cons.1 hx with rfl | h
        · exact fun h => hc (sep_iff.2 h)
        · exact h1 x h

theorem share_upto (win u) : Share win u (upto win 2 u) := by
  rcases upto_succ win 1 u with ⟨h1, h2⟩ | ⟨a, s, rest, h1, h2, h3, h4⟩
  · exact .inr ⟨h2, .inl h1⟩
  · rcases upto_succ win 0 rest with ⟨g1, g2⟩ | ⟨b, s', w, g1, g2, g3, g4⟩
    · refine .inr ⟨by rw [h4, g2, h3], .inr ⟨a, s, rest, h1, h2, g1, h3⟩⟩
    · refine .inl ⟨a, s, b, s', w, h1, h2, g1, g2, by rw [h3, g3], ?_⟩
      rw [h4, g4, upto_zero]

theorem substring_prefix {v : View Ch} (hv : v.WF) {p u : List Ch} (e : v.text = p ++ u) (n : Nat) (hn : n = p.length) :
    (substring v 0 n).WF ∧ (substring v 0 n).text = p := by
  obtain ⟨h1, h2⟩ := substring_text v hv 0 n
  refine ⟨h2, ?_⟩
  rw [h1, e, hn]; simp

theorem emptyView_wf : emptyView.WF := ⟨by decide, by have := W_pos; show 0 < W; omega⟩

theorem Root.ne_nil {win t r} (h : Root win t r) : t ≠ [] := by
  cases h with
  | current => simp
  | unc pre u x h =>
    rcases h with ⟨a, b, _, _, rfl, _⟩ | ⟨_, d, x, n, c, s, _, _, _, _, _, rfl⟩ <;> simp
  | volume p rest _ h =>
    rcases h with ⟨l, _, rfl⟩ | ⟨d, x, _, rfl, l, _, rfl⟩ | ⟨d, x, hd, rfl, hx, _⟩
    · simp
    · simp
    · intro e
      have := congrArg List.length e
      simp [device_len hd] at this
  | volumeSep p rest s => simp

/-- **C55, root.**  For every path the computation stays inside the text, and its result is the root as specified by `Root`, empty if there is none. -/
theorem C55_root (win : Bool) (v : View Ch) (hv : v.WF) : ∃ r, pathRoot win v = some r ∧ r.WF ∧ RootOf win v.text r.text := by
  have hl := text_length hv
  unfold pathRoot
  simp only [Option.bind_eq_bind]
  by_cases h0 : v.len = 0
  · rw [if_pos h0]
    refine ⟨emptyView, rfl, emptyView_wf, .inr ⟨rfl, ?_⟩⟩
    intro x hx
    exact hx.ne_nil (nil_of_len h0)
  · rw [if_neg h0]
    rcases oneSep_spec (win := win) hv h0 with ⟨e1, s, u, hs, et, hn⟩ | ⟨e1, hno⟩
    · rw [e1]
      simp only [Option.bind_some, if_true]
      obtain ⟨w, t⟩ := substring_prefix (p := [s]) (u := u) hv et 1 rfl
      refine ⟨_, rfl, w, .inl ?_⟩
      rw [t, et]; exact .current s u hs hn
    · rw [e1]
      simp only [Option.bind_some, Bool.false_eq_true, if_false]
      have no1 : ∀ s u, Sep win s → (∀ c ∈ u.head?, ¬ Sep win c) → v.text ≠ s :: u := fun s u hs hn e => hno ⟨s, u, hs, e, hn⟩
      rcases tryUnc_spec (win := win) hv with ⟨e2, no2⟩ | ⟨n, pre, u, e2, hn0, hn, hp, et⟩
      · rw [e2]
        simp only [Option.bind_some, ne_eq, not_true, if_false]
        cases win with
        | false =>
          simp only [Bool.false_eq_true, if_false]
          refine ⟨emptyView, rfl, emptyView_wf, .inr ⟨rfl, ?_⟩⟩
          intro x hx
          generalize hvt : v.text = t at *
          cases hx with
          | current s u hs hn => exact no1 s u hs hn rfl
          | unc pre u x h _ => exact no2 pre u h rfl
          | volume _ _ h => cases h
          | volumeSep _ _ _ h => cases h
        | true =>
          simp only [if_true]
          rcases tryVol_spec hv with ⟨e3, no3⟩ | ⟨n, p, rest, e3, hn0, hn, hp, et⟩
          · rw [e3]
            simp only [Option.bind_some, not_true, if_false]
            refine ⟨emptyView, rfl, emptyView_wf, .inr ⟨rfl, ?_⟩⟩
            intro x hx
            generalize hvt : v.text = t at *
            cases hx with
            | current s u hs hn => exact no1 s u hs hn rfl
            | unc pre u x h _ => exact no2 pre u h rfl
            | volume => exact no3 _ _ ‹Volume _ _› rfl
            | volumeSep p rest s _ h => exact no3 p (s :: rest) h rfl
          · rw [e3]
            simp only [Option.bind_some]
            rw [if_pos hn0]
            cases rest with
            | nil =>
              have : v.len = n := by rw [← hl, et, hn]; simp
              rw [if_neg (by omega)]
              simp only [Option.bind_some, Bool.false_eq_true, if_false]
              obtain ⟨w, t⟩ := substring_prefix hv et n hn
              refine ⟨_, rfl, w, .inl ?_⟩
              rw [t, et]; exact .volume p [] rfl hp (by simp)
            | cons s rest =>
              have hlen : v.len = n + 1 + rest.length := by rw [← hl, et, hn]; simp; omega
              have hr : v.rd n = some s := by
                rw [rd_eq (by omega), et, hn]; simp
              rw [if_pos (by omega), hr]
              simp only [Option.map_some, Option.bind_some]
              by_cases hs : sep true s = true
              · rw [if_pos hs]
                obtain ⟨w, t⟩ := substring_prefix (p := p ++ [s]) (u := rest) hv (by rw [et]; simp) (n + 1) (by simp [hn])
                refine ⟨_, rfl, w, .inl ?_⟩
                rw [t, et]; exact .volumeSep p rest s rfl hp (sep_iff.1 hs)
              · rw [if_neg hs]
                obtain ⟨w, t⟩ := substring_prefix hv et n hn
                refine ⟨_, rfl, w, .inl ?_⟩
                rw [t, et]
                refine .volume p _ rfl hp ?_
                intro c hc
                simp only [List.head?_cons, Option.mem_def, Option.some.injEq] at hc
                subst hc; exact fun h => hs (sep_iff.2 h)
      · rw [e2]
        simp only [Option.bind_some]
        rw [if_pos hn0]
        have hlen : v.len = n + u.length := by rw [← hl, et, hn]; simp
        have hd : v.text.drop n = u := by rw [et, hn]; simp
        rw [skipLoop_eq hv (v.len - n) n 2 (by omega), hd]
        simp only [Option.bind_some]
        have hu : u = upto win 2 u ++ u.drop (upto win 2 u).length := by
          rw [← upto_take win 2 u, List.length_take, Nat.min_eq_left (upto_len win 2 u), List.take_append_drop]
        obtain ⟨w, t⟩ := substring_prefix (p := pre ++ upto win 2 u) (u := u.drop (upto win 2 u).length) hv
          (by rw [et, List.append_assoc, ← hu]) (n + (upto win 2 u).length) (by simp [hn])
        refine ⟨_, rfl, w, .inl ?_⟩
        rw [t, et]; exact .unc pre u _ hp (share_upto win u)

theorem Share.prefix {win u x} (h : Share win u x) : ∃ y, u = x ++ y := by
  rcases h with ⟨a, s, b, s', rest, _, _, _, _, rfl, rfl⟩ | ⟨rfl, _⟩
  · exact ⟨rest, by simp⟩
  · exact ⟨[], by simp⟩

theorem RootOf.prefix {win t r} (h : RootOf win t r) : ∃ rest, t = r ++ rest := by
  rcases h with h | ⟨rfl, _⟩
  · cases h with
    | current s u => exact ⟨u, rfl⟩
    | unc pre u x _ h => obtain ⟨y, rfl⟩ := h.prefix; exact ⟨y, by simp⟩
    | volume p rest => exact ⟨rest, rfl⟩
    | volumeSep p rest s => exact ⟨rest, by simp⟩
  · exact ⟨t, rfl⟩

/-! ### File name, directory, extension -/

theorem seps_wf (win) : (seps win).WF := by
  cases win <;> exact ⟨by decide, by show _ < W; unfold W; decide⟩

theorem seps_text (win c) : c ∈ (seps win).text ↔ Sep win c := by
  cases win <;> simp [seps, View.text, Sep, or_comm]

theorem lastSep {win} {v : View Ch} (hv : v.WF) (n : Nat) :
    (∃ a s b, lastIndexOfAnyIn v (seps win) n (W - 1) = some (some a.length) ∧ n ≤ a.length ∧ v.text = a ++ s :: b ∧ Sep win s ∧ Plain win b) ∨
    (lastIndexOfAnyIn v (seps win) n (W - 1) = some none ∧ Plain win (v.text.drop n)) := by
  obtain ⟨r, h1, h2⟩ := (C14_indexOf_any v (seps win) hv (seps_wf win) n (W - 1)).2.2.2
  have hl := text_length hv
  have hW : v.len < W := by have := hv.1; have := hv.2; omega
  cases r with
  | none =>
    refine .inr ⟨h1, ?_⟩
    intro c hc hs
    obtain ⟨k, hk, rfl⟩ := List.mem_iff_getElem.1 hc
    have hk' : n + k < v.text.length := by simp at hk; omega
    refine h2 (n + k) ⟨by omega, by omega, _, (seps_text win _).2 hs, ?_⟩
    rw [List.getElem_drop, List.getElem?_eq_getElem hk']
  | some k =>
    obtain ⟨⟨g1, g2, c, g3, g4⟩, g5⟩ := h2
    obtain ⟨hk, he⟩ := List.getElem?_eq_some_iff.1 g4
    refine .inl ⟨v.text.take k, c, v.text.drop (k + 1), ?_, ?_, ?_, (seps_text win c).1 g3, ?_⟩
    · rw [h1, List.length_take, Nat.min_eq_left (by omega)]
    · rw [List.length_take, Nat.min_eq_left (by omega)]; exact g1
    · rw [← he, ← List.drop_eq_getElem_cons hk, List.take_append_drop]
    · intro x hx hs
      obtain ⟨j, hj, rfl⟩ := List.mem_iff_getElem.1 hx
      have hj' : k + 1 + j < v.text.length := by simp at hj; omega
      refine g5 (k + 1 + j) (by omega) ⟨by omega, by omega, _, (seps_text win _).2 hs, ?_⟩
      rw [List.getElem_drop, List.getElem?_eq_getElem hj']

/-- **C55, file name and directory (partial).**  Every path is either split at the last separator outside the root, into directory, separator and file
name, or there is no separator outside the root; then the directory is the root, but the file name is the whole path, which is the promised result only
if the path has no root (`C55_fileName_fails`). -/
theorem C55_split_partial (win : Bool) (v : View Ch) (hv : v.WF) :
    ∃ d f r, directory win v = some d ∧ fileName win v = some f ∧ RootOf win v.text r ∧
      ((∃ s, v.text = d.text ++ s :: f.text ∧ Sep win s ∧ Plain win f.text ∧ r.length ≤ d.text.length) ∨
       (∃ rest, v.text = r ++ rest ∧ Plain win rest ∧ f.text = v.text ∧ d.text = r)) := by
  obtain ⟨r, h1, h2, h3⟩ := C55_root win v hv
  have hl := text_length hv
  by_cases h0 : v.len = 0
  · have ht := nil_of_len h0
    have hr : r.text = [] := by
      obtain ⟨y, hy⟩ := h3.prefix
      rw [ht] at hy
      exact (List.append_eq_nil_iff.1 hy.symm).1
    refine ⟨v, emptyView, r.text, by simp [directory, removeFileSpec, h0], by simp [fileName, h0], h3, .inr ⟨[], ?_, (by intro c h; cases h), ?_, ?_⟩⟩
    · rw [ht, hr]; rfl
    · rw [ht]; rfl
    · rw [ht, hr]
  · have hr := text_length h2
    unfold directory removeFileSpec fileName
    simp only [Option.bind_eq_bind]
    rw [if_neg h0, if_neg h0, h1]
    simp only [Option.bind_some]
    rcases lastSep (win := win) hv r.len with ⟨a, s, b, e1, e2, e3, e4, e5⟩ | ⟨e1, e2⟩
    · have hlen : v.len = a.length + 1 + b.length := by rw [← hl, e3]; simp; omega
      rw [e1, if_neg (by omega)]
      simp only [Option.bind_some]
      obtain ⟨_, t1⟩ := substring_prefix hv e3 a.length rfl
      obtain ⟨t2, _⟩ := substringFrom_text v hv (a.length + 1)
      refine ⟨_, _, r.text, rfl, rfl, h3, .inl ⟨s, ?_, e4, ?_, ?_⟩⟩
      · rw [t1, t2, e3, List.drop_append]; simp
      · rw [t2, e3, List.drop_append, List.drop_eq_nil_of_le (by omega)]; simpa using e5
      · rw [t1, hr]; exact e2
    · rw [e1]
      simp only [Option.bind_some]
      obtain ⟨rest, hrest⟩ := h3.prefix
      have hdrop : v.text.drop r.len = rest := by rw [hrest, ← hr]; simp
      rw [hdrop] at e2
      by_cases hf : r.len = v.len
      · rw [if_pos hf]
        refine ⟨v, v, r.text, rfl, rfl, h3, .inr ⟨rest, hrest, e2, rfl, ?_⟩⟩
        have : rest = [] := by
          have := congrArg List.length hrest
          simp only [List.length_append] at this
          exact List.length_eq_zero_iff.1 (by omega)
        rw [hrest, this]; simp
      · rw [if_neg hf]
        exact ⟨r, v, r.text, rfl, rfl, h3, .inr ⟨rest, hrest, e2, rfl, rfl⟩⟩

/-- on a path without a root the split reproduces the path -/
theorem C55_split_unrooted (win : Bool) (v : View Ch) (hv : v.WF) (hn : ∀ x, ¬ Root win v.text x) :
    ∃ d f, directory win v = some d ∧ fileName win v = some f ∧ Plain win f.text ∧
      ((∃ s, Sep win s ∧ v.text = d.text ++ s :: f.text) ∨ (d.text = [] ∧ v.text = f.text)) := by
  obtain ⟨d, f, r, h1, h2, h3, h4⟩ := C55_split_partial win v hv
  have hr : r = [] := by
    rcases h3 with h | ⟨h, _⟩
    · exact absurd h (hn r)
    · exact h
  rcases h4 with ⟨s, e, hs, hp, _⟩ | ⟨rest, e1, e2, e3, e4⟩
  · exact ⟨d, f, h1, h2, hp, .inl ⟨s, hs, e⟩⟩
  · subst hr
    rw [List.nil_append] at e1
    exact ⟨d, f, h1, h2, by rw [e3, e1]; exact e2, .inr ⟨e4, e3.symm⟩⟩

theorem substringFrom_wf {v : View Ch} (hv : v.WF) (i) : (substringFrom v i).WF := (substringFrom_text v hv i).2

theorem fileName_wf (win : Bool) (v : View Ch) (hv : v.WF) : ∃ f, fileName win v = some f ∧ f.WF := by
  obtain ⟨r, h1, h2, h3⟩ := C55_root win v hv
  unfold fileName
  simp only [Option.bind_eq_bind]
  by_cases h0 : v.len = 0
  · rw [if_pos h0]; exact ⟨_, rfl, emptyView_wf⟩
  · rw [if_neg h0, h1]
    simp only [Option.bind_some]
    rcases lastSep (win := win) hv r.len with ⟨a, s, b, e1, _⟩ | ⟨e1, _⟩
    · rw [e1]; exact ⟨_, rfl, substringFrom_wf hv _⟩
    · rw [e1]; exact ⟨_, rfl, hv⟩

/-- **C55, extension.**  The extension is the part of the file name from its last dot on, empty if it has no dot. -/
theorem C55_extension (win : Bool) (v : View Ch) (hv : v.WF) :
    ∃ f x, fileName win v = some f ∧ extension win v = some x ∧
      ((∃ a b, f.text = a ++ ch '.' :: b ∧ ch '.' ∉ b ∧ x.text = ch '.' :: b) ∨ (ch '.' ∉ f.text ∧ x.text = [])) := by
  obtain ⟨f, h1, h2⟩ := fileName_wf win v hv
  obtain ⟨r, g1, g2⟩ := lastIndexOf_spec h2 (ch '.')
  unfold extension
  rw [h1]
  simp only [Option.bind_eq_bind, Option.bind_some]
  rw [g1]
  simp only [Option.bind_some]
  cases r with
  | none =>
    refine ⟨f, emptyView, rfl, rfl, .inr ⟨?_, rfl⟩⟩
    intro hm
    obtain ⟨k, hk, he⟩ := List.mem_iff_getElem.1 hm
    exact g2 k (by rw [← he]; exact List.getElem?_eq_getElem hk)
  | some k =>
    obtain ⟨g3, g4⟩ := g2
    obtain ⟨hk, he⟩ := List.getElem?_eq_some_iff.1 g3
    obtain ⟨t, _⟩ := substringFrom_text f h2 k
    refine ⟨f, _, rfl, rfl, .inl ⟨f.text.take k, f.text.drop (k + 1), ?_, ?_, ?_⟩⟩
    · rw [← he, ← List.drop_eq_getElem_cons hk, List.take_append_drop]
    · intro hm
      obtain ⟨j, hj, he'⟩ := List.mem_iff_getElem.1 hm
      have hj' : k + 1 + j < f.text.length := by simp at hj; omega
      refine g4 (k + 1 + j) (by omega) ?_
      rw [List.getElem_drop] at he'
      rw [List.getElem?_eq_getElem hj', he']
    · rw [t, ← he, ← List.drop_eq_getElem_cons hk]

/-- **C55, name without extension (partial):** right for file names without a dot only; otherwise the result is the extension itself
(second part, for every path), so that name and extension do not reproduce the file name. -/
theorem C55_noExt_partial (win : Bool) (v : View Ch) (hv : v.WF) :
    ∃ f x n, fileName win v = some f ∧ extension win v = some x ∧ fileNameNoExt win v = some n ∧ (ch '.' ∉ f.text → n.text ++ x.text = f.text) ∧
      (ch '.' ∈ f.text → n.text = x.text) := by
  obtain ⟨f, h1, h2⟩ := fileName_wf win v hv
  obtain ⟨r, g1, g2⟩ := lastIndexOf_spec h2 (ch '.')
  obtain ⟨f', x, e1, e2, e3⟩ := C55_extension win v hv
  rw [h1] at e1; cases e1
  have e2' := e2
  unfold extension at e2
  unfold fileNameNoExt
  rw [h1] at *
  simp only [Option.bind_eq_bind, Option.bind_some] at *
  rw [g1] at *
  simp only [Option.bind_some] at *
  cases r with
  | none =>
    refine ⟨f, x, f, rfl, e2', rfl, ?_, ?_⟩
    · intro _
      have : x = emptyView := by simpa using e2.symm
      rw [this]; show f.text ++ [] = f.text; simp
    · intro hm
      obtain ⟨k, hk, he⟩ := List.mem_iff_getElem.1 hm
      exact absurd (by rw [← he]; exact List.getElem?_eq_getElem hk) (g2 k)
  | some k =>
    refine ⟨f, x, _, rfl, e2', rfl, ?_, ?_⟩
    · intro hn
      exact absurd (List.mem_of_getElem? g2.1) hn
    · intro _
      have : x = substringFrom f k := by simpa using e2.symm
      rw [this]

theorem root_ne {win t r} (h : Root win t r) : r ≠ [] := by
  have hv : ∀ p rest, Volume p rest → p ≠ [] := by
    rintro p rest (⟨l, _, rfl⟩ | ⟨d, x, ⟨a, b, q, c, rfl, _⟩, rfl, _⟩ | ⟨d, x, ⟨a, b, q, c, rfl, _⟩, rfl, _⟩) <;> simp
  cases h with
  | current => simp
  | unc pre u x h _ =>
    rcases h with ⟨a, b, _, _, rfl, _⟩ | ⟨_, d, x, n, c, s, ⟨a, b, q, c', rfl, _⟩, _, _, _, _, rfl⟩ <;> simp
  | volume p rest _ h _ => exact hv _ _ h
  | volumeSep => simp

/-- `IsPathRooted` answers whether the path has a root. -/
theorem C55_rooted (win : Bool) (v : View Ch) (hv : v.WF) : ∃ b, isRooted win v = some b ∧ (b = true ↔ ∃ r, Root win v.text r) := by
  obtain ⟨r, h1, h2, h3⟩ := C55_root win v hv
  unfold isRooted; rw [h1]
  refine ⟨_, rfl, ?_⟩
  have hl := text_length h2
  rw [decide_eq_true_iff]
  rcases h3 with h | ⟨h, hn⟩
  · refine ⟨fun _ => ⟨_, h⟩, fun _ e => root_ne h ?_⟩
    exact List.eq_nil_of_length_eq_zero (by omega)
  · rw [h] at hl
    refine ⟨fun e => absurd hl.symm e, fun ⟨x, hx⟩ => absurd hx (hn x)⟩

end Verif.Path
