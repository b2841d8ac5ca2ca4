import Verif.Path.Unique
import Verif.View.Compare
import Verif.StrHeap.Witness

namespace Verif.Path
open Verif.View

theorem readFrom_eq {v : View Ch} (hv : v.WF) : ∀ (n i : Nat), i + n ≤ v.len → readFrom v i n = some ((v.text.drop i).take n)
  | 0, i, _ => by simp [readFrom]
  | n + 1, i, h => by
    obtain ⟨c, u, h1, h2⟩ := rd_drop hv (show i < v.len by omega)
    unfold readFrom
    rw [h2]; dsimp only
    rw [readFrom_eq hv n (i + 1) (by omega), h1]
    have : v.text.drop (i + 1) = u := by rw [← List.drop_drop, h1]; rfl
    rw [this]; simp

theorem readFrom_all {v : View Ch} (hv : v.WF) : readFrom v 0 v.len = some v.text := by
  rw [readFrom_eq hv v.len 0 (by omega), ← text_length hv]; simp

theorem skipSeps_spec {win} {v : View Ch} (hv : v.WF) : ∀ (n i : Nat), i + n = v.len →
    ∃ z q, v.text.drop i = z ++ q ∧ (∀ c ∈ z, Sep win c) ∧ (∀ c ∈ q.head?, ¬ Sep win c) ∧ skipSeps win v i n = some (i + z.length)
  | 0, i, h => ⟨[], [], List.drop_eq_nil_of_le (by rw [text_length hv]; omega), by simp, by simp, by simp [skipSeps]⟩
  | n + 1, i, h => by
    obtain ⟨c, u, h1, h2⟩ := rd_drop hv (show i < v.len by omega)
    have hu : v.text.drop (i + 1) = u := by rw [← List.drop_drop, h1]; rfl
    unfold skipSeps
    rw [h2]; dsimp only
    by_cases hc : sep win c = true
    · rw [if_pos hc]
      obtain ⟨z, q, e1, e2, e3, e4⟩ := skipSeps_spec hv n (i + 1) (by omega)
      refine ⟨c :: z, q, by rw [h1, ← hu, e1]; rfl, ?_, e3, by rw [e4]; simp; omega⟩
      intro x hx
      rcases List.mem_cons.1 hx with rfl | hx
      · exact sep_iff.1 hc
      · exact e2 x hx
    · rw [if_neg hc]
      refine ⟨[], c :: u, h1, by simp, ?_, rfl⟩
      intro x hx
      simp only [List.head?_cons, Option.mem_def, Option.some.injEq] at hx
      subst hx; exact fun h => hc (sep_iff.2 h)

theorem kSep_val (win : Bool) : kSep win = if win then 92 else 47 := by cases win <;> decide

/-- `r` is `p` and `q` joined: leading separators of `q` are dropped; one separator is put between unless `p` is empty or ends with one; nothing happens if `q`
consists of separators. The separator is `\\` (92) on Windows and `/` (47) elsewhere -/
def Joined (win : Bool) (p q r : List Ch) : Prop :=
  ∃ z q', q = z ++ q' ∧ (∀ c ∈ z, Sep win c) ∧ (∀ c ∈ q'.head?, ¬ Sep win c) ∧
    ((q' = [] ∧ r = p) ∨
     (q' ≠ [] ∧ p = [] ∧ r = q') ∨
     (q' ≠ [] ∧ (∃ a s, p = a ++ [s] ∧ Sep win s) ∧ r = p ++ q') ∨
     (q' ≠ [] ∧ (∃ a s, p = a ++ [s] ∧ ¬ Sep win s) ∧ r = p ++ (if win then 92 else 47) :: q'))

theorem absolute_cases {win} {q : View Ch} (hq : q.WF) (h0 : q.len ≠ 0) :
    (∃ n, tryUnc win q = some n ∧ n ≠ 0 ∧ Absolute win q.text) ∨
    (tryUnc win q = some 0 ∧ ((if win then (tryVol q).map (fun r => decide (r ≠ 0)) else oneSep win q) = some true ∧ Absolute win q.text ∨
      (if win then (tryVol q).map (fun r => decide (r ≠ 0)) else oneSep win q) = some false ∧ ¬ Absolute win q.text)) := by
  rcases tryUnc_spec (win := win) hq with ⟨e, no⟩ | ⟨n, pre, u, e, hn0, hn, hp, et⟩
  · refine .inr ⟨e, ?_⟩
    cases win with
    | true =>
      simp only [if_true]
      rcases tryVol_spec hq with ⟨e3, no3⟩ | ⟨n, p, rest, e3, hn0, hn, hp, et⟩
      · rw [e3]
        refine .inr ⟨rfl, ?_⟩
        rintro (⟨pre, u, h, e⟩ | ⟨_, p, rest, h, e⟩ | ⟨h, _⟩)
        · exact no pre u h e
        · exact no3 p rest h e
        · cases h
      · rw [e3]
        exact .inl ⟨by simp [hn0], .inr (.inl ⟨rfl, p, rest, hp, et⟩)⟩
    | false =>
      simp only [Bool.false_eq_true, if_false]
      rcases oneSep_spec (win := false) hq h0 with ⟨e1, h⟩ | ⟨e1, h⟩
      · exact .inl ⟨e1, .inr (.inr ⟨rfl, h⟩)⟩
      · refine .inr ⟨e1, ?_⟩
        rintro (⟨pre, u, h', e⟩ | ⟨h', _⟩ | ⟨_, h'⟩)
        · exact no pre u h' e
        · cases h'
        · exact h h'
  · exact .inl ⟨n, e, hn0, .inl ⟨pre, u, hp, et⟩⟩

theorem not_absolute_nil (win) : ¬ Absolute win [] := by
  rintro (⟨pre, u, h, e⟩ | ⟨_, p, rest, h, e⟩ | ⟨_, s, u, _, e, _⟩)
  · obtain ⟨a, b, w, e', _⟩ := unc_shape h; rw [e'] at e; cases e
  · rcases volume_shape h with ⟨l, w, e1, _⟩ | ⟨a, b, q, c, x, w, e1, _⟩ | ⟨a, b, q, c, x, y, w, e1, _⟩ <;> rw [e1] at e <;> cases e
  · cases e

theorem getLast_sep {win} {p : List Ch} (hp : p ≠ []) : ∃ a s, p = a ++ [s] ∧ p.getLast?.map (sep win) = some (sep win s) := by
  refine ⟨p.dropLast, p.getLast hp, (List.dropLast_concat_getLast hp).symm, ?_⟩
  rw [List.getLast?_eq_some_getLast hp]; rfl

/-- **C56, Append (partial).**  For every path whose string owns its storage and every appended text: an absolute text replaces the path, any other is joined with exactly
one separator.  Missing: strings that share their storage (`C56_append_shared`). -/
theorem C56_append_partial (win : Bool) (p : List Ch) (q : View Ch) (hq : q.WF) :
    ∃ r, append win false p q = some r ∧ (Absolute win q.text → r = q.text) ∧ (¬ Absolute win q.text → Joined win p q.text r) := by
  have hl := text_length hq
  unfold append
  simp only [Option.bind_eq_bind]
  by_cases h0 : q.len = 0
  · rw [if_pos h0]
    have ht := nil_of_len h0
    refine ⟨p, rfl, fun h => ?_, fun _ => ?_⟩
    · rw [ht] at h; exact absurd h (not_absolute_nil win)
    · rw [ht]; exact ⟨[], [], rfl, by simp, by simp, .inl ⟨rfl, rfl⟩⟩
  · rw [if_neg h0]
    rcases absolute_cases (win := win) hq h0 with ⟨n, e, hn, ha⟩ | ⟨e, ⟨e2, ha⟩ | ⟨e2, ha⟩⟩
    · rw [e]
      simp only [Option.bind_some]
      rw [if_pos hn, readFrom_all hq]
      exact ⟨_, rfl, fun _ => rfl, fun h => absurd ha h⟩
    · rw [e]
      simp only [Option.bind_some, ne_eq, not_true, if_false]
      simp only [ne_eq] at e2
      rw [e2]
      simp only [Option.bind_some, if_true]
      rw [readFrom_all hq]
      exact ⟨_, rfl, fun _ => rfl, fun h => absurd ha h⟩
    · rw [e]
      simp only [Option.bind_some, ne_eq, not_true, if_false]
      simp only [ne_eq] at e2
      rw [e2]
      simp only [Option.bind_some, Bool.false_eq_true, if_false]
      obtain ⟨z, q', s1, s2, s3, s4⟩ := skipSeps_spec (win := win) hq q.len 0 (by omega)
      rw [List.drop_zero] at s1
      rw [s4]
      simp only [Option.bind_some, Nat.zero_add]
      have hlen : q.len = z.length + q'.length := by rw [← hl, s1]; simp
      by_cases hq' : q' = []
      · rw [if_pos (by rw [hlen, hq']; simp)]
        exact ⟨p, rfl, fun h => absurd h ha, fun _ => ⟨z, q', s1, s2, s3, .inl ⟨hq', rfl⟩⟩⟩
      · have : q'.length ≠ 0 := fun h => hq' (List.length_eq_zero_iff.1 h)
        rw [if_neg (by omega), readFrom_eq hq _ _ (by omega)]
        have hrd : (q.text.drop z.length).take (q.len - z.length) = q' := by
          rw [s1, hlen]; simp
        rw [hrd]
        simp only [lockUnlock, Bool.false_eq_true, if_false, Option.bind_some]
        by_cases hp : p = []
        · rw [if_neg (by simp [hp])]
          exact ⟨_, rfl, fun h => absurd h ha, fun _ => ⟨z, q', s1, s2, s3, .inr (.inl ⟨hq', hp, by rw [hp]; rfl⟩)⟩⟩
        · obtain ⟨a, s, e3, e4⟩ := getLast_sep (win := win) hp
          rw [e4]
          have hp' : ¬ p.length = 0 := fun h => hp (List.length_eq_zero_iff.1 h)
          by_cases hs : sep win s = true
          · rw [if_neg (by simp [hs])]
            exact ⟨_, rfl, fun h => absurd h ha, fun _ => ⟨z, q', s1, s2, s3, .inr (.inr (.inl ⟨hq', ⟨a, s, e3, sep_iff.1 hs⟩, rfl⟩))⟩⟩
          · rw [if_pos ⟨hp', by simpa using hs⟩]
            refine ⟨_, rfl, fun h => absurd h ha, fun _ => ⟨z, q', s1, s2, s3, .inr (.inr (.inr ⟨hq', ⟨a, s, e3, fun h => hs (sep_iff.2 h)⟩, ?_⟩))⟩⟩
            simp [kSep_val]

/-- **C56 fails** for a path that shares its storage, whatever the texts: the path is lost, only the appended part remains. -/
theorem C56_append_shared (win : Bool) (p : List Ch) (q : View Ch) (hq : q.WF) (hn : ¬ Absolute win q.text) (r : List Ch) (h : append win true p q = some r) :
    r = p ∨ ∃ z q', q.text = z ++ q' ∧ (∀ c ∈ z, Sep win c) ∧ q' ≠ [] ∧ r = q' := by
  have hl := text_length hq
  unfold append at h
  simp only [Option.bind_eq_bind] at h
  by_cases h0 : q.len = 0
  · rw [if_pos h0] at h; cases h; exact .inl rfl
  · rw [if_neg h0] at h
    rcases absolute_cases (win := win) hq h0 with ⟨n, e, _, ha⟩ | ⟨e, ⟨e2, ha⟩ | ⟨e2, ha⟩⟩
    · exact absurd ha hn
    · exact absurd ha hn
    · rw [e] at h
      simp only [Option.bind_some, ne_eq, not_true, if_false] at h
      simp only [ne_eq] at e2
      rw [e2] at h
      simp only [Option.bind_some, Bool.false_eq_true, if_false] at h
      obtain ⟨z, q', s1, s2, s3, s4⟩ := skipSeps_spec (win := win) hq q.len 0 (by omega)
      rw [List.drop_zero] at s1
      rw [s4] at h
      simp only [Option.bind_some, Nat.zero_add] at h
      have hlen : q.len = z.length + q'.length := by rw [← hl, s1]; simp
      by_cases hq' : q.len - z.length = 0
      · rw [if_pos hq'] at h; cases h; exact .inl rfl
      · rw [if_neg hq', readFrom_eq hq _ _ (by omega)] at h
        have hrd : (q.text.drop z.length).take (q.len - z.length) = q' := by
          rw [s1, hlen]; simp
        rw [hrd] at h
        simp only [lockUnlock, if_true, Option.bind_some] at h
        rw [if_neg (by simp)] at h
        cases h
        exact .inr ⟨z, q', s1, s2, fun h' => hq' (by rw [hlen, h']; simp), rfl⟩

/-! ### Volumes and the full path -/

/-- trailing separators taken off -/
def trimmed (win : Bool) (t : List Ch) : List Ch := dropWhileEnd (sep win) t

theorem trimSeps_spec {win} : ∀ (n : Nat) (v : View Ch), v.WF → v.len = n →
    ∃ w, trimSeps win n v = some w ∧ w.WF ∧ w.text = trimmed win v.text
  | 0, v, hv, h => ⟨v, rfl, hv, by rw [nil_of_len h]; rfl⟩
  | n + 1, v, hv, h => by
    have hl := text_length hv
    have hne : v.text ≠ [] := by intro e; rw [e] at hl; simp at hl; omega
    have e := List.dropLast_concat_getLast hne
    have hr : v.rd (v.len - 1) = some (v.text.getLast hne) := by
      rw [rd_eq (by omega), ← List.getLast?_eq_some_getLast hne, List.getLast?_eq_getElem?, hl]
    unfold trimSeps
    rw [if_neg (by omega), hr]
    dsimp only
    by_cases hs : sep win (v.text.getLast hne) = true
    · rw [if_pos hs]
      obtain ⟨w1, w2⟩ := slice_spec v hv 0 1 (by unfold W; decide)
      have ht : (slice v 0 1).text = v.text.dropLast := by
        rw [w2]; unfold inner; rw [List.drop_zero, List.dropLast_eq_take]
      have hlen : (slice v 0 1).len = n := by
        rw [← text_length w1, ht, List.length_dropLast, hl, h]; rfl
      obtain ⟨w, g1, g2, g3⟩ := trimSeps_spec n (slice v 0 1) w1 hlen
      refine ⟨w, g1, g2, ?_⟩
      rw [g3, ht]
      unfold trimmed
      conv => rhs; rw [← e]
      rw [dropWhileEnd_snoc, if_pos hs]
    · rw [if_neg hs]
      refine ⟨v, rfl, hv, ?_⟩
      unfold trimmed
      conv => rhs; rw [← e]
      rw [dropWhileEnd_snoc, if_neg hs, e]

/-- the volume name that `IsSameVolume` compares: without `\\?\` and trailing separators -/
def VolumeName (win : Bool) (t x : List Ch) : Prop :=
  (∃ d u, Device win d ∧ t = d ++ u ∧ x = trimmed win u) ∨ ((∀ d u, Device win d → t ≠ d ++ u) ∧ x = trimmed win t)

theorem volumeName_spec {win} {v : View Ch} (hv : v.WF) :
    ∃ a w, noDevice win v = some a ∧ trimSeps win a.len a = some w ∧ w.WF ∧ VolumeName win v.text w.text := by
  unfold noDevice
  rw [chkLen_eq hv]
  simp only [Option.bind_eq_bind, Option.bind_some]
  by_cases h : matchB [sep win, sep win, is2 '?' '.', sep win] v.text = true
  · rw [if_pos h]
    obtain ⟨d, u, hd, e⟩ := device_iff.1 h
    obtain ⟨w1, w2⟩ := slice_spec v hv 4 0 (by unfold W; decide)
    have ht : (slice v 4 0).text = u := by
      rw [w2]; unfold inner; rw [Nat.sub_zero, List.take_length, e, ← device_len hd]; simp
    obtain ⟨w, g1, g2, g3⟩ := trimSeps_spec (win := win) _ (slice v 4 0) w1 rfl
    exact ⟨_, w, rfl, g1, g2, .inl ⟨d, u, hd, e, by rw [g3, ht]⟩⟩
  · rw [if_neg h]
    obtain ⟨w, g1, g2, g3⟩ := trimSeps_spec (win := win) _ v hv rfl
    exact ⟨_, w, rfl, g1, g2, .inr ⟨fun d u hd e => h (device_iff.2 ⟨d, u, hd, e⟩), g3⟩⟩

/-- **C56 fails**, in every case: `IsSameVolume` answers true exactly when the two volume names have the same length and differ. -/
theorem C56_sameVolume_inverted (win : Bool) (l r : View Ch) (hl : l.WF) (hr : r.WF) :
    ∃ x y b, VolumeName win l.text x ∧ VolumeName win r.text y ∧ sameVolume win l r = some b ∧
      (b = true ↔ x.length = y.length ∧ x.map upper ≠ y.map upper) := by
  obtain ⟨a, w, e1, e2, e3, e4⟩ := volumeName_spec (win := win) hl
  obtain ⟨a', w', e1', e2', e3', e4'⟩ := volumeName_spec (win := win) hr
  unfold sameVolume
  simp only [Option.bind_eq_bind]
  rw [e1]; simp only [Option.bind_some]
  rw [e2]; simp only [Option.bind_some]
  rw [e1']; simp only [Option.bind_some]
  rw [e2']; simp only [Option.bind_some]
  by_cases h : w.len = w'.len
  · rw [if_neg (by simpa using h)]
    obtain ⟨d, g1, g2⟩ := compareView_spec diffSmall upper w w' e3 e3' (fun _ _ _ _ => rfl)
    rw [g1]
    refine ⟨w.text, w'.text, _, e4, e4', rfl, ?_⟩
    rw [decide_eq_true_iff, text_length e3, text_length e3']
    constructor
    · intro hd; exact ⟨h, fun he => hd (g2.2.1.2 he)⟩
    · intro hd he; exact hd.2 (g2.2.1.1 he)
  · rw [if_pos (by simpa using h)]
    refine ⟨w.text, w'.text, _, e4, e4', rfl, ?_⟩
    rw [text_length e3, text_length e3']
    simp [h]

end Verif.Path
