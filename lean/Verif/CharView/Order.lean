import Verif.CharView.Props
import Verif.View.Compare
/-!
# C98 – comparison of encoded text is comparison of characters

`Compare`, `CompareI` of views (StringView.h 176-247, 895-969; `CharUpperAsASCII`, tchar.h 86-94), modelled by `Verif.View.compareView`, on the units of texts of characters.
`u8char_t` is `char8_t` from C++20 on and `char`, which is signed, before (YY.h 142-146).
-/
namespace Verif.CharView
open Verif.View
open Verif.Utf

/-- the values of unsigned units -/
def ints (l : List Nat) : List Int := l.map Int.ofNat
/-- the values of the units as `signed char` -/
def sints (l : List Nat) : List Int := l.map fun (x : Nat) => if x < 128 then (x : Int) else (x : Int) - 256

theorem ints_lt (l m : List Nat) : ints l < ints m ↔ l < m := by
  induction l generalizing m with
  | nil => cases m <;> simp [ints]
  | cons a l ih =>
    cases m with
    | nil => simp [ints]
    | cons b m =>
      have := ih m
      simp only [ints, List.map_cons, List.cons_lt_cons_iff] at this ⊢
      rw [this]
      have e1 : Int.ofNat a < Int.ofNat b ↔ a < b := by simp
      have e2 : Int.ofNat a = Int.ofNat b ↔ a = b := ⟨fun h => Int.ofNat.inj h, fun h => by rw [h]⟩
      rw [e1, e2]

theorem ints_inj (l m : List Nat) : ints l = ints m ↔ l = m := by
  constructor
  · intro h
    exact List.map_inj_right (fun _ _ h => Int.ofNat.inj h) |>.1 h
  · rintro rfl; rfl

variable {C : Code}

/-- earlier characters have smaller units -/
def Code.Mono (C : Code) : Prop := ∀ c d, C.ok c → C.ok d → c < d → C.enc c < C.enc d

theorem lt_append {p q X Y : List Nat} (h : p < q) (hp : ¬ p <+: q) : p ++ X < q ++ Y := by
  induction p generalizing q with
  | nil => exact absurd (List.nil_prefix) hp
  | cons a p ih =>
    cases q with
    | nil => simp at h
    | cons b q =>
      rw [List.cons_lt_cons_iff] at h
      simp only [List.cons_append, List.cons_lt_cons_iff]
      rcases h with h | ⟨rfl, h⟩
      · exact .inl h
      · exact .inr ⟨rfl, ih h (fun hq => hp (by simpa using hq))⟩

theorem append_lt {p X Y : List Nat} (h : X < Y) : p ++ X < p ++ Y := by
  induction p with
  | nil => exact h
  | cons a p ih => rw [List.cons_append, List.cons_append, List.cons_lt_cons_iff]; exact .inr ⟨rfl, ih⟩

theorem text_lt (h : C.Sync) (hm : C.Mono) {t u : List Nat} (ht : C.Ok t) (hu : C.Ok u) (hl : t < u) : C.text t < C.text u := by
  induction t generalizing u with
  | nil =>
    cases u with
    | nil => simp at hl
    | cons d u =>
      obtain ⟨l, r, e, _⟩ := h.shape d (hu d (by simp))
      simp [e]
  | cons c t ih =>
    cases u with
    | nil => simp at hl
    | cons d u =>
      rw [List.cons_lt_cons_iff] at hl
      have oc := ht c (by simp)
      have od := hu d (by simp)
      rcases hl with hl | ⟨rfl, hl⟩
      · exact lt_append (hm c d oc od hl) (fun hp => by have := h.pf c d oc od hp; omega)
      · exact append_lt (ih ht.tail hu.tail hl)

theorem text_lt_iff (h : C.Sync) (hm : C.Mono) {t u : List Nat} (ht : C.Ok t) (hu : C.Ok u) : C.text t < C.text u ↔ t < u := by
  refine ⟨fun hl => ?_, text_lt h hm ht hu⟩
  rcases Std.lt_trichotomy t u with g | g | g
  · exact g
  · rw [g] at hl; exact absurd hl (Std.lt_irrefl)
  · exact absurd (Std.lt_trans hl (text_lt h hm hu ht g)) Std.lt_irrefl

theorem utf8_mono : utf8.Mono := by
  intro c d hc hd h
  obtain ⟨h1, h2⟩ := hc
  obtain ⟨h3, h4⟩ := hd
  simp only [utf8, Spec.utf8]
  repeat' split
  all_goals (try simp only [List.cons_lt_cons_iff, List.nil_lt_cons, List.not_lt_nil, and_true, and_false, or_false])
  all_goals omega

theorem utf32_mono : utf32.Mono := by
  intro c d _ _ h
  simp only [utf32, List.cons_lt_cons_iff]
  exact .inl h

/-- ASCII upper case of a character -/
def up (c : Nat) : Nat := if 97 ≤ c ∧ c ≤ 122 then c - 32 else c

/-- upper-casing the units is upper-casing the characters -/
def Code.Ascii (C : Code) : Prop := ∀ c, C.ok c → (C.enc c).map up = C.enc (up c) ∧ C.ok (up c)

theorem up_scalar {c : Nat} (h : Spec.Scalar c) : Spec.Scalar (up c) := by
  obtain ⟨h1, h2⟩ := h
  unfold up
  split
  · exact ⟨by omega, by omega⟩
  · exact ⟨h1, h2⟩

theorem up_big {x : Nat} (h : 128 ≤ x) : up x = x := by unfold up; rw [if_neg (by omega)]
theorem up_small {x : Nat} (h : x < 128) : up x < 128 := by unfold up; split <;> omega

theorem utf8_ascii : utf8.Ascii := by
  intro c hc
  refine ⟨?_, up_scalar hc⟩
  obtain ⟨h1, h2⟩ := hc
  simp only [utf8]
  by_cases h : c < 128
  · rw [Spec.utf8, if_pos h, Spec.utf8, if_pos (up_small h)]; rfl
  · rw [up_big (by omega)]
    unfold Spec.utf8
    rw [if_neg (by omega)]
    split
    · simp [up_big (show 128 ≤ 192 + c / 64 by omega), up_big (show 128 ≤ 128 + c % 64 by omega)]
    · split
      · simp [up_big (show 128 ≤ 224 + c / 4096 by omega), up_big (show 128 ≤ 128 + c / 64 % 64 by omega), up_big (show 128 ≤ 128 + c % 64 by omega)]
      · simp [up_big (show 128 ≤ 240 + c / 262144 by omega), up_big (show 128 ≤ 128 + c / 4096 % 64 by omega), up_big (show 128 ≤ 128 + c / 64 % 64 by omega), up_big (show 128 ≤ 128 + c % 64 by omega)]

theorem utf16_ascii : utf16.Ascii := by
  intro c hc
  refine ⟨?_, up_scalar hc⟩
  simp only [utf16]
  by_cases h : c < 0x10000
  · rw [Spec.utf16, if_pos h, Spec.utf16, if_pos (by unfold up; split <;> omega)]; rfl
  · rw [up_big (by omega)]
    unfold Spec.utf16
    rw [if_neg (by omega)]
    simp [up_big (show 128 ≤ 55296 + (c - 65536) / 1024 by omega), up_big (show 128 ≤ 56320 + (c - 65536) % 1024 by omega)]

theorem utf32_ascii : utf32.Ascii := fun c hc => ⟨rfl, up_scalar hc⟩

theorem map_up (h : C.Ascii) {t : List Nat} (ht : C.Ok t) : (C.text t).map up = C.text (t.map up) ∧ C.Ok (t.map up) := by
  induction t with
  | nil => exact ⟨rfl, fun c hc => by simp at hc⟩
  | cons c t ih =>
    obtain ⟨h1, h2⟩ := h c (ht c (by simp))
    obtain ⟨h3, h4⟩ := ih ht.tail
    refine ⟨by simp [h1, h3], fun x hx => ?_⟩
    rcases List.mem_cons.1 hx with rfl | hx
    · exact h2
    · exact h4 x hx

theorem upper_ints (l : List Nat) : (ints l).map upper = ints (l.map up) := by
  simp only [ints, List.map_map]
  apply List.map_congr_left
  intro x _
  simp only [Function.comp, upper, up]
  have e : Int.ofNat x = (x : Int) := rfl
  rw [e]
  by_cases h : 97 ≤ x ∧ x ≤ 122
  · rw [if_pos h, if_pos (by omega)]
    have : Int.ofNat (x - 32) = ((x - 32 : Nat) : Int) := rfl
    rw [this]; omega
  · rw [if_neg h, if_neg (by omega)]
    rfl

theorem reports_text (hs : C.Sync) (hm : C.Mono) {t u : List Nat} (ht : C.Ok t) (hu : C.Ok u) {d : Int} (h : Reports d (ints (C.text t)) (ints (C.text u))) : Reports d (ints t) (ints u) := by
  obtain ⟨h1, h2, h3⟩ := h
  rw [ints_lt, text_lt_iff hs hm ht hu, ← ints_lt] at h1
  rw [ints_lt, text_lt_iff hs hm hu ht, ← ints_lt] at h3
  rw [ints_inj] at h2
  refine ⟨h1, h2.trans ?_, h3⟩
  rw [ints_inj]
  exact ⟨fun e => text_inj hs ht hu e, fun e => by rw [e]⟩

/-- the units of the code are in the range where the subtraction of the kind is exact -/
theorem kind_ok {k : Kind} (hC : k = .small ∨ C = utf32) {t : List Nat} (ht : C.Ok t) : ∀ x ∈ ints (C.text t), k.Ok x := by
  intro x hx
  rcases hC with rfl | rfl
  · trivial
  · obtain ⟨n, hn, rfl⟩ := List.mem_map.1 hx
    simp only [Code.text, utf32, List.mem_flatMap, List.mem_singleton] at hn
    obtain ⟨c, hc, rfl⟩ := hn
    have h1 := (ht n hc).1
    have e : Int.ofNat n = (n : Int) := rfl
    cases k
    · trivial
    · simp only [Kind.Ok, e]; omega
    · simp only [Kind.Ok, e]; omega

/-- **C98** (order). UTF-8 with unsigned units (`char8_t`), and UTF-32: `Compare` reports the lexicographic order of the characters, `CompareI` that of the characters with ASCII letters in upper case,
for every two texts. So both encodings order texts in the same way. Missing: UTF-16, signed `char`, the other byte order (`C98_order_fails`). -/
theorem C98_order_partial (k : Kind) (hC : C = utf8 ∧ k = .small ∨ C = utf32) (v w : View Int) (hv : v.WF) (hw : w.WF) (t u : List Nat) (ht : C.Ok t) (hu : C.Ok u)
    (ev : v.text = ints (C.text t)) (ew : w.text = ints (C.text u)) :
    (∃ d, compareView k.diff id v w = some d ∧ Reports d (ints t) (ints u)) ∧ (∃ d, compareView k.diff upper v w = some d ∧ Reports d (ints (t.map up)) (ints (u.map up))) := by
  have hk : k = .small ∨ C = utf32 := by rcases hC with h | h; exact .inl h.2; exact .inr h
  have all : C.Sync ∧ C.Mono ∧ C.Ascii := by
    rcases hC with ⟨rfl, _⟩ | rfl
    · exact ⟨utf8_sync, utf8_mono, utf8_ascii⟩
    · exact ⟨utf32_sync, utf32_mono, utf32_ascii⟩
  obtain ⟨hs, hm, ha⟩ := all
  obtain ⟨⟨d, g1, g2⟩, ⟨e, g3, g4⟩⟩ := C17_compare_partial k v w hv hw (by rw [ev]; exact kind_ok hk ht) (by rw [ew]; exact kind_ok hk hu)
  rw [ev, ew] at g2 g4
  refine ⟨⟨d, g1, reports_text hs hm ht hu g2⟩, ⟨e, g3, ?_⟩⟩
  rw [upper_ints, upper_ints, (map_up ha ht).1, (map_up ha hu).1] at g4
  exact reports_text hs hm (map_up ha ht).2 (map_up ha hu).2 g4

/-- **C98** (equality). In UTF-8, UTF-16 and UTF-32 `Compare` is zero exactly for equal texts and `CompareI` exactly for texts that are equal up to the case of ASCII letters;
the other byte order: `Compare` only (`C98_case_fails`). -/
theorem C98_equal (k : Kind) (hC : C = utf8 ∧ k = .small ∨ C = utf16 ∧ k = .small ∨ C = utf32 ∨ C = utf16BE ∧ k = .small) (v w : View Int) (hv : v.WF) (hw : w.WF) (t u : List Nat) (ht : C.Ok t) (hu : C.Ok u)
    (ev : v.text = ints (C.text t)) (ew : w.text = ints (C.text u)) :
    (∃ d, compareView k.diff id v w = some d ∧ (d = 0 ↔ t = u)) ∧ (C ≠ utf16BE → ∃ d, compareView k.diff upper v w = some d ∧ (d = 0 ↔ t.map up = u.map up)) := by
  have hk : k = .small ∨ C = utf32 := by
    rcases hC with h | h | h | h
    · exact .inl h.2
    · exact .inl h.2
    · exact .inr h
    · exact .inl h.2
  have all : C.Sync ∧ (C ≠ utf16BE → C.Ascii) := by
    rcases hC with ⟨rfl, _⟩ | ⟨rfl, _⟩ | rfl | ⟨rfl, _⟩
    · exact ⟨utf8_sync, fun _ => utf8_ascii⟩
    · exact ⟨utf16_sync, fun _ => utf16_ascii⟩
    · exact ⟨utf32_sync, fun _ => utf32_ascii⟩
    · exact ⟨utf16BE_sync, fun h => absurd rfl h⟩
  obtain ⟨hs, ha⟩ := all
  obtain ⟨⟨d, g1, _, g2, _⟩, ⟨e, g3, _, g4, _⟩⟩ := C17_compare_partial k v w hv hw (by rw [ev]; exact kind_ok hk ht) (by rw [ew]; exact kind_ok hk hu)
  rw [ev, ew] at g2 g4
  refine ⟨⟨d, g1, g2.trans ?_⟩, fun hne => ⟨e, g3, g4.trans ?_⟩⟩
  · rw [ints_inj]
    exact ⟨fun e => text_inj hs ht hu e, fun e => by rw [e]⟩
  · have ha := ha hne
    rw [upper_ints, upper_ints, (map_up ha ht).1, (map_up ha hu).1, ints_inj]
    exact ⟨fun e => text_inj hs (map_up ha ht).2 (map_up ha hu).2 e, fun e => by rw [e]⟩

/-- **C98** (UTF-16 without surrogates): the order of the characters. -/
theorem C98_bmp_partial (v w : View Int) (hv : v.WF) (hw : w.WF) (t u : List Nat) (ht : ∀ c ∈ t, c < 0x10000) (hu : ∀ c ∈ u, c < 0x10000)
    (ev : v.text = ints (utf16.text t)) (ew : w.text = ints (utf16.text u)) :
    (∃ d, compareView diffSmall id v w = some d ∧ Reports d (ints t) (ints u)) ∧ (∃ d, compareView diffSmall upper v w = some d ∧ Reports d (ints (t.map up)) (ints (u.map up))) := by
  have e : ∀ t : List Nat, (∀ c ∈ t, c < 0x10000) → utf16.text t = t := by
    intro t
    induction t with
    | nil => intro _; rfl
    | cons c t ih =>
      intro h
      rw [text_cons, ih (fun x hx => h x (by simp [hx]))]
      have := h c (by simp)
      simp [utf16, Spec.utf16, this]
  rw [e t ht] at ev
  rw [e u hu] at ew
  obtain ⟨⟨d, g1, g2⟩, ⟨x, g3, g4⟩⟩ := C17_compare_partial .small v w hv hw (fun _ _ => trivial) (fun _ _ => trivial)
  rw [ev, ew] at g2 g4
  rw [upper_ints, upper_ints] at g4
  exact ⟨⟨d, g1, g2⟩, ⟨x, g3, g4⟩⟩

/-- **C98 fails** (order): in UTF-16 U+FF5E is after U+1F600; in UTF-8 with `char` (before C++20) 'é' is before 'a'; in UTF-16 of the other byte order U+0100 is before 'a'. In each case the first character is
the smaller (the second and third case: greater) one. -/
theorem C98_order_fails :
    (∃ d, compareView diffSmall id ⟨ints (utf16.text [0xFF5E]), 0, 1⟩ ⟨ints (utf16.text [0x1F600]), 0, 2⟩ = some d ∧ 0 < d) ∧
    (∃ d, compareView diffSmall id ⟨sints (utf8.text [0xE9]), 0, 2⟩ ⟨sints (utf8.text [0x61]), 0, 1⟩ = some d ∧ d < 0) ∧
    (∃ d, compareView diffSmall id ⟨ints (utf16BE.text [0x100]), 0, 1⟩ ⟨ints (utf16BE.text [0x61]), 0, 1⟩ = some d ∧ d < 0) := by
  refine ⟨⟨10017, by decide, by decide⟩, ⟨-158, ?_, by decide⟩, ⟨-24831, by decide, by decide⟩⟩
  decide

/-- **C98 fails** (case): in UTF-16 of the other byte order `CompareI` tells "a" and "A" apart, and takes U+6100 (愀) for U+4100 (䄀). -/
theorem C98_case_fails :
    (∃ d, compareView diffSmall upper ⟨ints (utf16BE.text [0x61]), 0, 1⟩ ⟨ints (utf16BE.text [0x41]), 0, 1⟩ = some d ∧ d ≠ 0) ∧
    compareView diffSmall upper ⟨ints (utf16BE.text [0x6100]), 0, 1⟩ ⟨ints (utf16BE.text [0x4100]), 0, 1⟩ = some 0 := by
  exact ⟨⟨8192, by decide, by decide⟩, by decide⟩

/-- "aé😀" and "aÉ😀" -/
theorem C98_example :
    utf8.Ok [0x61, 0xE9, 0x1F600] ∧ (⟨ints (utf8.text [0x61, 0xE9, 0x1F600]), 0, 7⟩ : View Int).WF ∧
    compareView diffSmall id ⟨ints (utf8.text [0x61, 0xE9, 0x1F600]), 0, 7⟩ ⟨ints (utf8.text [0x61, 0xC9]), 0, 3⟩ = some 32 ∧
    compareView diffSmall upper ⟨ints (utf8.text [0x61, 0xE9]), 0, 3⟩ ⟨ints (utf8.text [0x41, 0xE9]), 0, 3⟩ = some 0 := by
  refine ⟨?_, ⟨by decide, ?_⟩, by decide, by decide⟩
  · intro c hc
    simp at hc
    rcases hc with rfl | rfl | rfl <;> simp [utf8, Spec.Scalar]
  · unfold W; decide

end Verif.CharView
