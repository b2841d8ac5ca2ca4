import Verif.Path.Append

namespace Verif.Path
open Verif.View

/-- the path names one place, whatever the current directory is: a share, a volume followed by nothing or a separator (the code counts a bare `C:` too), elsewhere
one leading separator -/
def Qualified (win : Bool) (t : List Ch) : Prop :=
  (∃ pre u, UncPrefix win pre u ∧ t = pre ++ u) ∨
  (win = true ∧ ∃ p rest, Volume p rest ∧ t = p ++ rest ∧ ∀ c ∈ rest.head?, Sep win c) ∨
  (win = false ∧ SingleSep win t)

/-- `C:foo`: a volume followed by something that is no separator -/
def DriveRelative (win : Bool) (t : List Ch) : Prop :=
  win = true ∧ ∃ p rest c, Volume p rest ∧ t = p ++ rest ∧ rest.head? = some c ∧ ¬ Sep win c

theorem Qualified.absolute {win t} (h : Qualified win t) : Absolute win t := by
  rcases h with h | ⟨hw, p, rest, hp, e, _⟩ | h
  · exact .inl h
  · exact .inr (.inl ⟨hw, p, rest, hp, e⟩)
  · exact .inr (.inr h)

/-- an absolute path is fully qualified or drive relative -/
theorem absolute_split {win t} (h : Absolute win t) : Qualified win t ∨ DriveRelative win t := by
  rcases h with h | ⟨hw, p, rest, hp, e⟩ | h
  · exact .inl (.inl h)
  · cases hr : rest.head? with
    | none => exact .inl (.inr (.inl ⟨hw, p, rest, hp, e, by simp [hr]⟩))
    | some c =>
      by_cases hc : Sep win c
      · exact .inl (.inr (.inl ⟨hw, p, rest, hp, e, by simp [hr, hc]⟩))
      · exact .inr ⟨hw, p, rest, c, hp, e, hr, hc⟩
  · exact .inl (.inr (.inr h))

/-- **C56** `IsPathFullyQualified` of every text but the empty one answers as specified, and reads only the text.  (On the empty text outside Windows it reads a unit before
checking the length: `C56_qualified_empty_fails`.) -/
theorem C56_qualified_partial (win : Bool) (v : View Ch) (hv : v.WF) (h0 : win = true ∨ v.text ≠ []) :
    ∃ b, fullyQualified win v = some b ∧ (b = true ↔ Qualified win v.text) := by
  have hl := text_length hv
  unfold fullyQualified
  simp only [Option.bind_eq_bind]
  rcases tryUnc_spec (win := win) hv with ⟨e, no⟩ | ⟨n, pre, u, e, hn0, hn, hp, et⟩
  · rw [e]
    simp only [Option.bind_some, ne_eq, not_true, if_false]
    cases win with
    | true =>
      simp only [if_true]
      rcases tryVol_spec hv with ⟨e3, no3⟩ | ⟨n, p, rest, e3, hn0, hn, hp, et⟩
      · rw [e3]
        refine ⟨false, rfl, ⟨fun h => (by cases h), ?_⟩⟩
        rintro (⟨pre, u, h, e⟩ | ⟨_, p, rest, h, e, _⟩ | ⟨h, _⟩)
        · exact absurd e (no pre u h)
        · exact absurd e (no3 p rest h)
        · cases h
      · rw [e3]
        simp only [Option.bind_some]
        rw [if_pos (by simpa using hn0)]
        by_cases hr : n = v.len
        · rw [if_pos hr]
          refine ⟨true, rfl, ⟨fun _ => .inr (.inl ⟨rfl, p, rest, hp, et, ?_⟩), fun _ => rfl⟩⟩
          have : rest = [] := by
            have h1 := congrArg List.length et
            rw [hl, List.length_append] at h1
            exact List.length_eq_zero_iff.1 (by omega)
          rw [this]; simp
        · rw [if_neg hr]
          have hlt : n < v.len := by
            have h1 := congrArg List.length et
            rw [hl, List.length_append] at h1
            omega
          obtain ⟨c, u, h1, h2⟩ := rd_drop hv hlt
          have hr' : rest = c :: u := by rw [← h1, et, hn]; simp
          rw [h2]
          refine ⟨sep true c, rfl, ⟨fun h => .inr (.inl ⟨rfl, p, rest, hp, et, ?_⟩), ?_⟩⟩
          · rw [hr']; simp; exact sep_iff.1 h
          · rintro (⟨pre, u, h, e⟩ | ⟨_, p', rest', h, e, h'⟩ | ⟨h, _⟩)
            · exact absurd e (no pre u h)
            · obtain ⟨_, er⟩ := volume_unique hp h (et.symm.trans e)
              rw [← er, hr'] at h'
              exact sep_iff.2 (h' c (by simp))
            · cases h
    | false =>
      have hne : v.text ≠ [] := by simpa using h0
      have : v.len ≠ 0 := fun h => hne (nil_of_len h)
      simp only [Bool.false_eq_true, if_false]
      rcases oneSep_spec (win := false) hv this with ⟨e1, h⟩ | ⟨e1, h⟩
      · exact ⟨true, e1, ⟨fun _ => .inr (.inr ⟨rfl, h⟩), fun _ => rfl⟩⟩
      · refine ⟨false, e1, ⟨fun h => (by cases h), ?_⟩⟩
        rintro (⟨pre, u, h', e⟩ | ⟨h', _⟩ | ⟨_, h'⟩)
        · exact absurd e (no pre u h')
        · cases h'
        · exact absurd h' h
  · rw [e]
    simp only [Option.bind_some]
    rw [if_pos (by simpa using hn0)]
    exact ⟨true, rfl, ⟨fun _ => .inl ⟨pre, u, hp, et⟩, fun _ => rfl⟩⟩

theorem whole_wf {t : List Ch} (h : t.length < W) : (whole t).WF := ⟨by simp [whole], by show t.length < W; exact h⟩
theorem whole_text (t : List Ch) : (whole t).text = t := by simp [whole, View.text]

theorem not_unc_not_vol {win} {t : List Ch} (h : ¬ Qualified win t) (hd : ¬ DriveRelative win t) : ¬ Absolute win t :=
  fun ha => (absolute_split ha).elim h hd

/-- **C56, GetFullPath (partial).**  For every path that is not drive relative and every current directory: a fully qualified path is returned unchanged; on Windows a path that
starts with a separator is joined to the root of the current directory; every other path is joined to the current directory.  Missing: drive-relative paths such as `C:foo`
(`C56_fullPath_drive`, `C56_fullPath_fails`). -/
theorem C56_fullPath_partial (win : Bool) (cwd : List Ch) (v : View Ch) (hv : v.WF) (hne : v.text ≠ []) (hc : cwd ≠ []) (hcw : cwd.length < W)
    (hd : ¬ DriveRelative win v.text) :
    ∃ r, fullPath win cwd v = some r ∧
      (Qualified win v.text → r = v.text) ∧
      (¬ Qualified win v.text → (win = true ∧ ∃ s u, v.text = s :: u ∧ Sep win s) →
        ∃ root, RootOf win cwd root ∧ (root = [] → r = []) ∧ (root ≠ [] → Joined win root v.text r)) ∧
      (¬ Qualified win v.text → ¬ (win = true ∧ ∃ s u, v.text = s :: u ∧ Sep win s) → Joined win cwd v.text r) := by
  have hl := text_length hv
  have hlen : v.len ≠ 0 := fun h => hne (nil_of_len h)
  unfold fullPath
  simp only [Option.bind_eq_bind]
  rw [if_neg hlen]
  obtain ⟨b, e, hb⟩ := C56_qualified_partial win v hv (.inr hne)
  rw [e]
  simp only [Option.bind_some]
  cases b with
  | true =>
    rw [if_pos rfl, readFrom_all hv]
    have hq := hb.1 rfl
    exact ⟨_, rfl, fun _ => rfl, fun h => absurd hq h, fun h => absurd hq h⟩
  | false =>
    have hq : ¬ Qualified win v.text := fun h => by have := hb.2 h; cases this
    have ha := not_unc_not_vol hq hd
    rw [if_neg (by simp), if_neg (fun h => hc (List.length_eq_zero_iff.1 h))]
    cases win with
    | true =>
      rw [if_pos rfl]
      rcases tryVol_spec hv with ⟨e3, no3⟩ | ⟨n, p, rest, e3, hn0, hn, hp, et⟩
      · rw [e3]
        simp only [Option.bind_some, ne_eq, not_true, if_false]
        obtain ⟨c, u, h1, h2⟩ := rd_drop hv (show 0 < v.len by omega)
        rw [List.drop_zero] at h1
        rw [h2]
        simp only [Option.map_some, Option.bind_some]
        by_cases hs : sep true c = true
        · rw [if_pos hs]
          obtain ⟨r, g1, g2, g3⟩ := C55_root true (whole cwd) (whole_wf hcw)
          rw [whole_text] at g3
          rw [g1]
          simp only [Option.bind_some]
          rw [readFrom_all g2]
          simp only [Option.bind_some]
          have hsep : ∃ s u, v.text = s :: u ∧ Sep true s := ⟨c, u, h1, sep_iff.1 hs⟩
          by_cases hr : r.text = []
          · rw [if_pos (by simp [hr])]
            exact ⟨[], rfl, fun h => absurd h hq, fun _ _ => ⟨r.text, g3, fun _ => rfl, fun h => absurd hr h⟩, fun _ h => absurd (by simpa using hsep) h⟩
          · rw [if_neg (fun h => hr (List.length_eq_zero_iff.1 h))]
            obtain ⟨x, a1, _, a3⟩ := C56_append_partial true r.text v hv
            exact ⟨x, a1, fun h => absurd h hq, fun _ _ => ⟨r.text, g3, fun h => absurd h hr, fun _ => a3 ha⟩, fun _ h => absurd (by simpa using hsep) h⟩
        · rw [if_neg hs]
          obtain ⟨x, a1, _, a3⟩ := C56_append_partial true cwd v hv
          refine ⟨x, a1, fun h => absurd h hq, ?_, fun _ _ => a3 ha⟩
          rintro _ ⟨_, s, u', e, hs'⟩
          rw [h1] at e; cases e
          exact absurd (sep_iff.2 hs') hs
      · exact absurd (.inr (.inl ⟨rfl, p, rest, hp, et⟩)) ha
    | false =>
      rw [if_neg (by simp)]
      obtain ⟨x, a1, _, a3⟩ := C56_append_partial false cwd v hv
      exact ⟨x, a1, fun h => absurd h hq, (fun _ h => absurd h.1 (by simp)), fun _ _ => a3 ha⟩

/-- **C56 fails** for drive-relative paths, whatever the texts: let `x` and `y` be the names of the current volume and of the path's volume.  The current directory is used
exactly when `x` and `y` are *different* names of equal length; otherwise, in particular on the same volume, the path is joined to the bare volume. -/
theorem C56_fullPath_drive (cwd : List Ch) (v : View Ch) (hv : v.WF) (hc : cwd ≠ []) (hcw : cwd.length < W)
    (p rest : List Ch) (c : Ch) (hp : Volume p (c :: rest)) (et : v.text = p ++ c :: rest) (hs : ¬ Sep true c)
    (root : List Ch) (hroot : RootOf true cwd root) (hr0 : root ≠ []) :
    ∃ x y r, VolumeName true root x ∧ VolumeName true p y ∧ fullPath true cwd v = some r ∧
      (¬ Absolute true (c :: rest) →
        (x.length = y.length ∧ x.map upper ≠ y.map upper → Joined true cwd (c :: rest) r) ∧
        (¬ (x.length = y.length ∧ x.map upper ≠ y.map upper) → Joined true p (c :: rest) r)) := by
  have hl := text_length hv
  have hpl : p.length < v.len := by rw [← hl, et]; simp
  unfold fullPath
  simp only [Option.bind_eq_bind]
  rw [if_neg (by omega)]
  obtain ⟨b, e, hb⟩ := C56_qualified_partial true v hv (.inl rfl)
  have hq : ¬ Qualified true v.text := by
    rintro (⟨pre, u, h, e⟩ | ⟨_, p', rest', h, e, h'⟩ | ⟨h, _⟩)
    · exact unc_not_volume h hp (e.symm.trans et)
    · obtain ⟨_, er⟩ := volume_unique hp h (et.symm.trans e)
      rw [← er] at h'
      exact hs (h' c (by simp))
    · cases h
  have : b = false := by cases b with | true => exact absurd (hb.1 rfl) hq | false => rfl
  subst this
  rw [e]
  simp only [Option.bind_some]
  rw [if_neg (by simp), if_neg (fun h => hc (List.length_eq_zero_iff.1 h)), if_pos trivial]
  rcases tryVol_spec hv with ⟨e3, no3⟩ | ⟨n, p', rest', e3, hn0, hn, hp', et'⟩
  · exact absurd et (no3 _ _ hp)
  · obtain ⟨ep, _⟩ := volume_unique hp hp' (et.symm.trans et')
    subst ep
    rw [e3]
    simp only [Option.bind_some]
    rw [if_pos hn0]
    obtain ⟨r, g1, g2, g3⟩ := C55_root true (whole cwd) (whole_wf hcw)
    rw [whole_text] at g3
    have hrr : r.text = root := by
      rcases g3 with g | ⟨g, g'⟩ <;> rcases hroot with h | ⟨h, h'⟩
      · exact root_unique g h
      · exact absurd h hr0
      · exact absurd h (g' _)
      · exact absurd h hr0
    rw [g1]
    simp only [Option.bind_some]
    rw [if_neg (by rw [← text_length g2, hrr]; exact fun h => hr0 (List.length_eq_zero_iff.1 h))]
    obtain ⟨s1, s2⟩ := substring_prefix hv et n hn
    obtain ⟨x, y, b, v1, v2, v3, v4⟩ := C56_sameVolume_inverted true r (substring v 0 n) g2 s1
    rw [v3]
    simp only [Option.bind_some]
    obtain ⟨t1, t2⟩ := substringFrom_text v hv n
    have t3 : (substringFrom v n).text = c :: rest := by rw [t1, et, hn]; simp
    rw [hrr] at v1
    rw [s2] at v2
    cases b with
    | true =>
      simp only [if_true, Option.bind_some]
      obtain ⟨z, a1, _, a3⟩ := C56_append_partial true cwd (substringFrom v n) t2
      rw [t3] at a3
      exact ⟨x, y, z, v1, v2, a1, fun ha => ⟨fun _ => a3 ha, fun h => absurd (v4.1 rfl) h⟩⟩
    | false =>
      simp only [Bool.false_eq_true, if_false]
      rw [readFrom_all s1]
      simp only [Option.bind_some]
      obtain ⟨z, a1, _, a3⟩ := C56_append_partial true (substring v 0 n).text (substringFrom v n) t2
      rw [t3, s2] at a3
      rw [s2] at a1 ⊢
      exact ⟨x, y, z, v1, v2, a1, fun ha => ⟨fun h => absurd (v4.2 h) (by simp), fun _ => a3 ha⟩⟩

end Verif.Path
