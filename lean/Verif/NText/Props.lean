import Verif.NText.Model
import Verif.Utf.Exact16
/-! # C102: the text put into an `NString`, or taken out of it, is the text of the source -/
namespace Verif.NText
open Verif.Utf Verif.Utf.Spec

/-! ## what the claim says -/

/-- the units of the text `l` in a Unicode form -/
def units : Form → List Nat → List Nat
  | .u8, l => utf8s l
  | .u16LE, l => utf16s l
  | .u16BE, l => (utf16s l).map rev16
  | .u32LE, l => l
  | .u32BE, l => l.map rev32
  | .ansi _, _ => []

/-- `u` is the text `l` in the form `f`; for a code page: the system decodes it to `l` -/
def Holds (n : Nls) (f : Form) (u l : List Nat) : Prop :=
  match f with
  | .ansi cp => n.toWide cp u = some (utf16s l)
  | f => u = units f l

/-- `o` is what the destination must receive: the text `l` in its form; for a code page and a Unicode source, the bytes the system gives for `l` -/
def Carries (n : Nls) (f e : Form) (l o : List Nat) : Prop :=
  match f, e with
  | .ansi _, .ansi cp => n.toWide cp o = some (utf16s l)
  | _, .ansi cp => n.toMulti cp (utf16s l) = some o
  | _, e => o = units e l

/-- characters that do not survive the conversion from `f` to `e`: U+E000 after UTF-16 (C03), supplementary characters on the way from UTF-32 little endian through UTF-16 little endian (C04) -/
def Lost (f e : Form) (x : Nat) : Prop :=
  match f, e with
  | .u16LE, .u8 | .u16LE, .u32LE | .u16LE, .u32BE | .u16BE, .u8 | .u16BE, .u32LE | .u16BE, .u32BE => x = 0xE000
  | .ansi _, .u8 | .ansi _, .u32LE | .ansi _, .u32BE => x = 0xE000
  | .u32LE, .u16LE | .u32LE, .ansi _ => 0x10000 ≤ x
  | _, _ => False

/-- the conversions that move the storage of a temporary into an empty destination (C08) -/
def Moves (f e : Form) : Prop :=
  match f, e with
  | .u16LE, .u32BE | .ansi _, .u16BE | .ansi _, .u32BE => True
  | _, _ => False

/-- the limits of the system's conversions; between two code pages, that both read the same text in the bytes (C93) -/
def Room (n : Nls) (f e : Form) (u l : List Nat) : Prop :=
  match f, e with
  | .ansi a, .ansi b => n.toWide a u = n.toWide b u
  | .ansi _, _ => u.length ≤ intMax ∧ (utf16s l).length ≤ u.length
  | _, .ansi cp => (utf16s l).length ≤ intMax ∧ ∃ b, n.toMulti cp (utf16s l) = some b ∧ b.length ≤ intMax
  | _, _ => True

def Unicode : Form → Prop
  | .ansi _ => False
  | _ => True

/-- `o` appended; only an allocator that can fail gives out of memory -/
def OutT (g : Grow) (d : Dst) (o : List Nat) (r : ARes) : Prop := (∃ c, r = .ok ⟨d.buf ++ o, c⟩) ∨ (¬ Total g ∧ ∃ d', r = .oom d')

theorem OutT.out {g d o r} (h : OutT g d o r) : Out d o r := h.imp id fun ⟨_, h⟩ => h

theorem of_appends {g d o r} (h : Appends g d o r) : OutT g d o (.of r) := by
  rcases h with ⟨c, e, _⟩ | ⟨ht, d', e, _⟩
  · exact .inl ⟨c, by rw [e]; rfl⟩
  · exact .inr ⟨ht, d', by rw [e]; rfl⟩

theorem appendUnits_ok {g : Grow} (hg : Good g) (src : List Nat) (d : Dst) : OutT g d src (appendUnits g src d) := by
  unfold appendUnits
  by_cases h0 : src = []
  · rw [if_pos h0, h0]; exact .inl ⟨d.cap, by simp⟩
  · rw [if_neg h0]
    rcases lock_cases g hg d (d.buf.length + src.length) with ⟨k1, k2⟩ | ⟨c, k1, k2⟩
    · rw [k1]; exact .inr ⟨k2, d, rfl⟩
    · rw [k1]; dsimp only; rw [if_neg (by omega)]; exact .inl ⟨c, rfl⟩

theorem endianMove_ok {g : Grow} (hg : Good g) (swap : Nat → Nat) (s : List Nat) {d : Dst} (hd : d.buf.length ≤ d.cap) (hne : d.buf ≠ []) : OutT g d (s.map swap) (endianMove swap g s d) := by
  unfold endianMove
  by_cases hs : s = []
  · rw [if_pos hs, hs]; exact .inl ⟨d.cap, by simp⟩
  · rw [if_neg hs, if_neg hne]; exact of_appends (endian_ok swap g hg s d hd)

theorem rev16s (l : List Nat) (h : ∀ x ∈ l, Scalar x) : ((utf16s l).map rev16).map swap16 = utf16s l := by
  rw [map_swap16, List.map_map]
  conv => rhs; rw [← List.map_id (utf16s l)]
  exact List.map_congr_left fun x hx => rev16_rev16 x (utf16_lt l h x hx)

theorem rev32s (l : List Nat) (h : ∀ x ∈ l, Scalar x) : (l.map rev32).map swap32 = l := by
  induction l with
  | nil => rfl
  | cons x l ih =>
    rw [List.map_cons, List.map_cons, ih fun y hy => h y (List.mem_cons_of_mem _ hy), swap32_eq, rev32_rev32 x]
    have := (h x (List.mem_cons_self ..)).1
    omega

theorem flat8 (l : List Nat) (h : ∀ x ∈ l, Scalar x) : l.flatMap emit32LEto8 = utf8s l := by
  rw [flat_32to8 l fun x hx => by have := (h x hx).1; omega]
  exact flatMap_congr fun x hx => enc8_spec x (by have := (h x hx).1; omega)

theorem flat8BE (l : List Nat) (h : ∀ x ∈ l, Scalar x) : (l.map rev32).flatMap emit32BEto8 = utf8s l := by
  rw [← flat8 l h, List.flatMap_map]
  refine flatMap_congr fun x hx => ?_
  rw [emit32BEto8_eq, swap32_eq, rev32_rev32 x (by have := (h x hx).1; omega)]

theorem flat16 (l : List Nat) (h : ∀ x ∈ l, x < 0x10000) : l.flatMap emit32LEto16LE = utf16s l := by
  refine flatMap_congr fun x hx => ?_
  have := h x hx
  unfold emit32LEto16LE utf16
  rw [if_pos this, if_pos this]
  first | rfl | (congr 1; omega)

theorem flat16BE (l : List Nat) (h : ∀ x ∈ l, Scalar x) : l.flatMap emit32LEto16BE = (utf16s l).map rev16 := by
  rw [utf16s, map_flatMap]
  exact flatMap_congr fun x hx => emit32LEto16BE_eq x (h x hx).1

theorem flatBE16 (l : List Nat) (h : ∀ x ∈ l, Scalar x) : (l.map rev32).flatMap emit32BEto16LE = utf16s l := by
  rw [List.flatMap_map]
  refine flatMap_congr fun x hx => ?_
  have := (h x hx).1
  rw [emit32BEto16LE_eq x (by omega), if_pos this]

theorem flatBE16BE (l : List Nat) (h : ∀ x ∈ l, Scalar x) : (l.map rev32).flatMap emit32BEto16BE = (utf16s l).map rev16 := by
  rw [← flatBE16 l h, map_flatMap]
  exact flatMap_congr fun x _ => emit32BEto16BE_eq x

/-- between the Unicode forms -/
theorem unicode_ok (n : Nls) (g : Grow) (hg : Good g) (f e : Form) (hf : Unicode f) (he : Unicode e) (l : List Nat) (hl : ∀ x ∈ l, Scalar x ∧ ¬ Lost f e x) (d : Dst) (hd : d.buf.length ≤ d.cap)
    (hm : Moves f e → d.buf ≠ []) : OutT g d (units e l) (transform n g f e (units f l) d) := by
  have hs : ∀ x ∈ l, Scalar x := fun x hx => (hl x hx).1
  have hlt := utf16_lt l hs
  cases f <;> cases e <;> simp only [Unicode] at hf he <;> simp only [Lost, not_false_eq_true, and_true] at hl <;> simp only [transform, units]
  case u8.u8 => exact appendUnits_ok hg _ d
  case u16LE.u16LE => exact appendUnits_ok hg _ d
  case u16BE.u16BE => exact appendUnits_ok hg _ d
  case u32LE.u32LE => exact appendUnits_ok hg _ d
  case u32BE.u32BE => exact appendUnits_ok hg _ d
  case u8.u16LE =>
    have := conv8_ok _ q bound8to16LE g hg (utf8s l) d hd
    rw [out8_16_text q l hs] at this; exact of_appends this
  case u8.u16BE =>
    have := conv8_ok _ (swap16 q) bound8to16BE g hg (utf8s l) d hd
    rw [out8_16BE, out8_16_text q l hs, map_swap16] at this; exact of_appends this
  case u8.u32LE =>
    have := conv8_ok _ q bound8to32LE g hg (utf8s l) d hd
    rw [out8_32_text q l hs] at this; exact of_appends this
  case u8.u32BE =>
    have := conv8_ok _ q bound8to32BE g hg (utf8s l) d hd
    rw [out8_32BE_text q l hs] at this; exact of_appends this
  case u16LE.u8 =>
    have := (convG_ok _ 4 3 false bound16LEto8 g hg (utf16s l) d hd).1
    rw [out16_8_text q l hl] at this; exact of_appends this
  case u16LE.u16BE =>
    have := endian_ok swap16 g hg (utf16s l) d hd
    rw [map_swap16] at this; exact of_appends this
  case u16LE.u32LE =>
    have := conv16_ok _ q bound16LEto32LE g hg (utf16s l) d hd
    rw [out16_32_text q l hl] at this; exact of_appends this
  case u16LE.u32BE =>
    show OutT g d (l.map rev32) (transform n g .u16LE .u32BE (utf16s l) d)
    unfold transform; dsimp only
    by_cases h0 : utf16s l = []
    · rw [if_pos h0]
      have : l = [] := by
        cases l with
        | nil => rfl
        | cons a l => exact absurd h0 (utf16s_ne (by simp))
      rw [this]; exact .inl ⟨d.cap, by simp⟩
    · rw [if_neg h0]
      unfold viaTmp; dsimp only
      have := conv16_ok _ q bound16LEto32LE g hg (utf16s l) ⟨[], 0⟩ (Nat.le_refl _)
      rw [out16_32_text q l hl] at this
      unfold u16LEto32LE
      rcases this with ⟨c, e1, _⟩ | ⟨ht, d', e1, _⟩
      · rw [e1]; simp only [ARes.of, List.nil_append]
        rw [← map_swap32]
        exact endianMove_ok hg swap32 l hd (hm trivial)
      · rw [e1]; simp only [ARes.of]; exact .inr ⟨ht, d, rfl⟩
  case u16BE.u8 =>
    have := (convG_ok _ 4 3 true bound16BEto8 g hg ((utf16s l).map rev16) d hd).1
    rw [out16_BE8 q 0 _ hlt, out16_8_text q l hl] at this; exact of_appends this
  case u16BE.u16LE =>
    have := endian_ok swap16 g hg ((utf16s l).map rev16) d hd
    rw [rev16s l hs] at this; exact of_appends this
  case u16BE.u32LE =>
    have := conv16_ok _ q bound16BEto32LE g hg ((utf16s l).map rev16) d hd
    rw [out16_BE32LE q 0 _ hlt, out16_32_text q l hl] at this; exact of_appends this
  case u16BE.u32BE =>
    have := conv16_ok _ (swap32 q) bound16BEto32BE g hg ((utf16s l).map rev16) d hd
    rw [out16_BE32BE q 0 _ hlt, out16_32_text q l hl] at this; exact of_appends this
  case u32LE.u8 =>
    have := (convG_ok (noLast emit32LEto8) 6 3 true bound32LEto8 g hg l d hd).1
    rw [out16_noLast, flat8 l hs] at this; exact of_appends this
  case u32LE.u16LE =>
    have := (convG_ok (noLast emit32LEto16LE) 2 1 true bound32LEto16LE g hg l d hd).1
    rw [out16_noLast, flat16 l fun x hx => by have := (hl x hx).2; omega] at this; exact of_appends this
  case u32LE.u16BE =>
    have := (convG_ok (noLast emit32LEto16BE) 2 1 true bound32LEto16BE g hg l d hd).1
    rw [out16_noLast, flat16BE l hs] at this; exact of_appends this
  case u32LE.u32BE =>
    have := endian_ok swap32 g hg l d hd
    rw [map_swap32] at this; exact of_appends this
  case u32BE.u8 =>
    have := (convG_ok (noLast emit32BEto8) 6 3 true bound32BEto8 g hg (l.map rev32) d hd).1
    rw [out16_noLast, flat8BE l hs] at this; exact of_appends this
  case u32BE.u16LE =>
    have := (convG_ok (noLast emit32BEto16LE) 2 1 true bound32BEto16LE g hg (l.map rev32) d hd).1
    rw [out16_noLast, flatBE16 l hs] at this; exact of_appends this
  case u32BE.u16BE =>
    have := (convG_ok (noLast emit32BEto16BE) 2 1 true bound32BEto16BE g hg (l.map rev32) d hd).1
    rw [out16_noLast, flatBE16BE l hs] at this; exact of_appends this
  case u32BE.u32LE =>
    have := endian_ok swap32 g hg (l.map rev32) d hd
    rw [rev32s l hs] at this; exact of_appends this

theorem OutK.out {d o r} (h : OutK d o r) : Out d o r := h.imp id fun ⟨c, h⟩ => ⟨_, h⟩

/-- from every form to every form -/
theorem transform_ok (n : Nls) (hn : n.Ok) (g : Grow) (hg : Good g) (hlim : Lim g) (f e : Form) (u l : List Nat) (hu : u ≠ []) (hh : Holds n f u l) (hl : ∀ x ∈ l, Scalar x ∧ ¬ Lost f e x)
    (hr : Room n f e u l) (d : Dst) (hd : d.buf.length ≤ d.cap) (hc : d.cap < 2 ^ 62) (hm : Moves f e → d.buf ≠ []) :
    ∃ o, Carries n f e l o ∧ Out d o (transform n g f e u d) := by
  have hs : ∀ x ∈ l, Scalar x := fun x hx => (hl x hx).1
  by_cases hf : Unicode f
  · have hU : u = units f l := by cases f <;> first | exact hh | exact hf.elim
    by_cases he : Unicode e
    · refine ⟨units e l, ?_, hU ▸ (unicode_ok n g hg f e hf he l hl d hd hm).out⟩
      cases e <;> first | exact he.elim | (cases f <;> first | exact hf.elim | rfl)
    · have h0 : l ≠ [] := by
        intro h; apply hu; rw [hU, h]
        cases f <;> simp [units, utf8s, utf16s]
      cases e with
      | ansi cp =>
        have hr' : (utf16s l).length ≤ intMax ∧ ∃ b, n.toMulti cp (utf16s l) = some b ∧ b.length ≤ intMax := by
          cases f <;> first | exact hr | exact hf.elim
        obtain ⟨h1, b, h2, h3⟩ := hr'
        obtain ⟨a1, a2, a3, a4, a5⟩ := C93_same_bytes_partial n hn g hg hlim cp l b hs h0 h1 h2 h3 d hd hc
        refine ⟨b, ?_, ?_⟩
        · cases f <;> first | exact h2 | exact hf.elim
        · subst hU
          cases f with
          | u8 => exact OutK.out a2
          | u16LE => exact OutK.out a1
          | u16BE => exact OutK.out a3
          | u32LE => exact OutK.out (a5 fun x hx => by have := (hl x hx).2; simp only [Lost] at this; omega)
          | u32BE => exact OutK.out a4
          | ansi _ => exact hf.elim
      | _ => exact absurd trivial he
  · cases f with
    | ansi a =>
      have ht : n.toWide a u = some (utf16s l) := hh
      cases e with
      | ansi b =>
        refine ⟨u, ?_, ?_⟩
        · have : n.toWide a u = n.toWide b u := hr
          show n.toWide b u = _
          rw [← this, ht]
        · simp only [transform]; unfold ansiToAnsi
          rcases lock_cases g hg d (d.buf.length + u.length) with ⟨k1, k2⟩ | ⟨c, k1, k2⟩
          · rw [k1]; exact .inr ⟨d, rfl⟩
          · rw [k1]; dsimp only; rw [if_neg (by omega)]; exact .inl ⟨c, rfl⟩
      | u16LE =>
        refine ⟨utf16s l, rfl, ?_⟩
        rcases C93_from_ansi_partial n g hg a u (utf16s l) d hd hu hr.1 ht hr.2 with ⟨c, e1, _⟩ | ⟨e1, _⟩
        · exact .inl ⟨c, e1⟩
        · exact .inr ⟨_, e1⟩
      | u16BE =>
        refine ⟨(utf16s l).map rev16, rfl, ?_⟩
        simp only [transform]; unfold ansiTo16BE viaTmp; rw [if_neg hu]; dsimp only
        rcases C93_from_ansi_partial n g hg a u (utf16s l) ⟨[], 0⟩ (Nat.le_refl _) hu hr.1 ht hr.2 with ⟨c, e1, _⟩ | ⟨e1, _⟩
        · rw [e1]; dsimp only
          rw [List.nil_append, ← map_swap16]
          exact (endianMove_ok hg swap16 _ hd (hm trivial)).out
        · rw [e1]; exact .inr ⟨_, rfl⟩
      | u8 => exact ⟨_, rfl, (C93_same_text_partial n g hg a u l hl hu hr.1 ht hr.2 d hd).1⟩
      | u32LE => exact ⟨_, rfl, (C93_same_text_partial n g hg a u l hl hu hr.1 ht hr.2 d hd).2.1⟩
      | u32BE => exact ⟨_, rfl, ((C93_same_text_partial n g hg a u l hl hu hr.1 ht hr.2 d hd).2.2 (hm trivial)).2⟩
    | _ => exact absurd trivial hf

/-! ## the claims -/

/-- Appending a view of a text, in any form, to an `NString` of any encoding: exactly that text is added, in the encoding of the `NString`, which keeps it; or memory is lacking.
(Missing: the characters that are `Lost`, an empty `NString` where the conversion `Moves`, code pages that disagree, texts beyond the system's limits.) -/
theorem C102_append_partial (n : Nls) (hn : n.Ok) (g : Grow) (hg : Good g) (hlim : Lim g) (s : NString) (hd : s.text.buf.length ≤ s.text.cap) (hc : s.text.cap < 2 ^ 62)
    (f : Form) (u l : List Nat) (hu : u ≠ []) (hh : Holds n f u l) (hl : ∀ x ∈ l, Scalar x ∧ ¬ Lost f s.enc x) (hr : Room n f s.enc u l) (hm : Moves f s.enc → s.text.buf ≠ []) :
    ∃ o, Carries n f s.enc l o ∧ Out s.text o (s.append n g f u) := by
  unfold NString.append; rw [if_neg hu]
  exact transform_ok n hn g hg hlim f s.enc u l hu hh hl hr s.text hd hc hm

/-- Between the Unicode forms nothing else is needed, and with an allocator that does not fail the text is always added. -/
theorem C102_append_unicode_partial (n : Nls) (g : Grow) (hg : Good g) (ht : Total g) (s : NString) (hd : s.text.buf.length ≤ s.text.cap) (f : Form) (hf : Unicode f) (he : Unicode s.enc) (l : List Nat)
    (hl : ∀ x ∈ l, Scalar x ∧ ¬ Lost f s.enc x) (hm : Moves f s.enc → s.text.buf ≠ []) :
    ∃ c, s.append n g f (units f l) = .ok ⟨s.text.buf ++ units s.enc l, c⟩ := by
  rcases unicode_ok n g hg f s.enc hf he l hl s.text hd hm with h | ⟨h, _⟩
  · unfold NString.append
    by_cases h0 : units f l = []
    · rw [if_pos h0]
      have : l = [] := by
        cases l with
        | nil => rfl
        | cons a l =>
          cases f with
          | u8 => exact absurd h0 (utf8s_ne (by simp))
          | u16LE => exact absurd h0 (utf16s_ne (by simp))
          | u16BE => exact absurd (List.map_eq_nil_iff.1 h0) (utf16s_ne (by simp))
          | u32LE => cases h0
          | u32BE => cases h0
          | ansi _ => exact hf.elim
      refine ⟨s.text.cap, ?_⟩
      rw [this]
      cases hs : s.enc <;> simp [units, utf8s, utf16s]
    · rw [if_neg h0]; exact h
  · exact absurd ht h

/-- Taking the text out of an `NString`: the destination, whatever it held, holds exactly the text, in the form that is returned with it; or memory is lacking.  (Missing: as for appending, with a destination that is always empty.) -/
theorem C102_get_partial (n : Nls) (hn : n.Ok) (g : Grow) (hg : Good g) (hlim : Lim g) (s : NString) (e : Form) (cleared : Nat) (hc : cleared < 2 ^ 62) (l : List Nat) (hu : s.text.buf ≠ [])
    (hh : Holds n s.enc s.text.buf l) (hl : ∀ x ∈ l, Scalar x ∧ ¬ Lost s.enc e x) (hr : (Unicode s.enc ∨ Unicode e) → Room n s.enc e s.text.buf l) (hm : ¬ Moves s.enc e) :
    ∃ o, Carries n s.enc (s.get n g e cleared).1 l o ∧ Out ⟨[], cleared⟩ o (s.get n g e cleared).2 ∧ (Unicode s.enc ∨ Unicode e → (s.get n g e cleared).1 = e) := by
  have key : s.enc ≠ e → (Unicode s.enc ∨ Unicode e) → s.get n g e cleared = (e, transform n g s.enc e s.text.buf ⟨[], cleared⟩) := by
    intro hne hor
    unfold NString.get
    split
    · next h1 => rw [h1] at hor; simp [Unicode] at hor
    · rw [if_neg hne]
  by_cases hor : Unicode s.enc ∨ Unicode e
  · by_cases heq : s.enc = e
    · have hk : s.get n g e cleared = (e, .ok s.text) := by
        unfold NString.get
        split
        · next h1 => rw [h1] at hor; simp [Unicode] at hor
        · rw [if_pos heq]
      rw [hk]
      refine ⟨s.text.buf, ?_, .inl ⟨s.text.cap, rfl⟩, fun _ => rfl⟩
      subst heq
      revert hh hor
      generalize s.enc = f
      intro hh hor
      cases f <;> first | exact hh | simp [Unicode] at hor
    · rw [key heq hor]
      obtain ⟨o, h1, h2⟩ := transform_ok n hn g hg hlim s.enc e s.text.buf l hu hh hl (hr hor) ⟨[], cleared⟩ (Nat.zero_le _) hc fun h => absurd h hm
      exact ⟨o, h1, h2, fun _ => rfl⟩
  · obtain ⟨a, ha⟩ : ∃ a, s.enc = .ansi a := by
      revert hor; generalize s.enc = f; intro hor
      cases f <;> first | exact ⟨_, rfl⟩ | simp [Unicode] at hor
    obtain ⟨b, hb⟩ : ∃ b, e = .ansi b := by
      revert hor; intro hor
      cases e <;> first | exact ⟨_, rfl⟩ | simp [Unicode] at hor
    have hk : s.get n g e cleared = (.ansi a, .ok s.text) := by unfold NString.get; rw [ha, hb]
    rw [hk, ha]
    rw [ha] at hh
    exact ⟨s.text.buf, hh, .inl ⟨s.text.cap, rfl⟩, fun h => by rw [ha] at hor; exact absurd h hor⟩

/-- From an ANSI `NString` an ANSI String receives the bytes with the source's code page, whatever code page it was set to; the other encodings respect it. -/
theorem C102_code_page_fails (n : Nls) (g : Grow) (a b : Nat) (t : Dst) (cleared : Nat) (h : a ≠ b) :
    (NString.get n g ⟨.ansi a, t⟩ (.ansi b) cleared) = (.ansi a, .ok t) ∧ (NString.get n g ⟨.ansi a, t⟩ (.ansi b) cleared).1 ≠ .ansi b ∧
    ∀ f, Unicode f → ∀ t, (NString.get n g ⟨f, t⟩ (.ansi b) cleared).1 = .ansi b := by
  refine ⟨rfl, ?_, ?_⟩
  · intro e; exact h (Form.ansi.inj e)
  · intro f hf t
    cases f <;> first | rfl | exact hf.elim

/-- Every text that is not empty, taken as UTF-32 big endian out of a UTF-16 little endian `NString`, or appended to an empty UTF-32 big endian one: S_OK with freed storage, unless memory is lacking.
The same from a code page to UTF-16 and UTF-32 big endian. -/
theorem C102_dangling_fails (n : Nls) (g : Grow) (hg : Good g) (l : List Nat) (hl : ∀ x ∈ l, Scalar x ∧ x ≠ 0xE000) (h0 : l ≠ []) (c c' : Nat) :
    ((NString.get n g ⟨.u16LE, ⟨utf16s l, c⟩⟩ .u32BE c').2 = .dangling ∨ ∃ d, (NString.get n g ⟨.u16LE, ⟨utf16s l, c⟩⟩ .u32BE c').2 = .oom d) ∧
    (NString.append n g ⟨.u32BE, ⟨[], c'⟩⟩ .u16LE (utf16s l) = .dangling ∨ ∃ d, NString.append n g ⟨.u32BE, ⟨[], c'⟩⟩ .u16LE (utf16s l) = .oom d) ∧
    ∀ cp b, b ≠ [] → b.length ≤ intMax → n.toWide cp b = some (utf16s l) → (utf16s l).length ≤ b.length → ∀ e, (e = .u16BE ∨ e = .u32BE) →
      ((NString.get n g ⟨.ansi cp, ⟨b, c⟩⟩ e c').2 = .dangling ∨ ∃ d, (NString.get n g ⟨.ansi cp, ⟨b, c⟩⟩ e c').2 = .oom d) := by
  have hx : ∀ d : Dst, d.buf = [] → transform n g .u16LE .u32BE (utf16s l) d = .dangling ∨ transform n g .u16LE .u32BE (utf16s l) d = .oom d := by
    intro d hd
    simp only [transform]; rw [if_neg (utf16s_ne h0)]
    unfold viaTmp u16LEto32LE; dsimp only
    have := conv16_ok _ q bound16LEto32LE g hg (utf16s l) ⟨[], 0⟩ (Nat.le_refl _)
    rw [out16_32_text q l hl] at this
    rcases this with ⟨c, e1, _⟩ | ⟨ht, d', e1, _⟩
    · rw [e1]; simp only [ARes.of, List.nil_append]
      unfold endianMove; rw [if_neg h0, if_pos hd]; exact .inl rfl
    · rw [e1]; exact .inr rfl
  refine ⟨?_, ?_, ?_⟩
  · exact (hx ⟨[], c'⟩ rfl).imp id fun h => ⟨_, h⟩
  · unfold NString.append; rw [if_neg (utf16s_ne h0)]
    exact (hx ⟨[], c'⟩ rfl).imp id fun h => ⟨_, h⟩
  · intro cp b hb hbl ht hlen e he
    obtain ⟨h1, h2⟩ := C93_be_fails n g hg cp b l hl h0 hb hbl ht hlen ⟨[], c'⟩ rfl
    rcases he with rfl | rfl
    · exact h1.imp id fun h => ⟨_, h⟩
    · exact h2.imp id fun h => ⟨_, h⟩

/-- An ANSI view appended to an ANSI `NString` of a page that reads its bytes differently changes the text. -/
theorem C102_append_fails (n : Nls) (g : Grow) (hg : Good g) (a b : Nat) (u : List Nat) (hu : u ≠ []) (h : n.toWide a u ≠ n.toWide b u) (he : Enough g u.length) (c : Nat) :
    ∃ c', NString.append n g ⟨.ansi b, ⟨[], c⟩⟩ (.ansi a) u = .ok ⟨u, c'⟩ ∧ n.toWide b u ≠ n.toWide a u := by
  unfold NString.append; rw [if_neg hu]
  simp only [transform]; unfold ansiToAnsi
  rcases lock_ok hg (d := ⟨[], c⟩) (n := ([] : List Nat).length + u.length) with ⟨k1, k2, k3⟩ | ⟨c', k1, k2, _⟩
  · exact absurd k3 (he _ _ (by simpa using k2) (by simp))
  · dsimp only; rw [k1]; dsimp only; rw [if_neg (by simpa using k2)]; exact ⟨c', rfl, fun e => h e.symm⟩

/-- the hypotheses are met: "é😀" in UTF-8 appended to UTF-16 big endian, a code page through UTF-8, and taking it out again -/
theorem C102_example : Holds demo .u8 [0xC3, 0xA9, 0xF0, 0x9F, 0x98, 0x80] [0xE9, 0x1F600] ∧ (∀ x ∈ [0xE9, 0x1F600], Scalar x ∧ ¬ Lost .u8 .u16BE x) ∧
    Holds demo (.ansi 1) [97, 0x82] [97, 0xE9] ∧ Room demo (.ansi 1) .u8 [97, 0x82] [97, 0xE9] ∧ Room demo .u8 (.ansi 1) (utf8s [97, 0xE9]) [97, 0xE9] ∧
    NString.append demo small ⟨.u16BE, ⟨[0x4100], 15⟩⟩ .u8 [0xC3, 0xA9, 0xF0, 0x9F, 0x98, 0x80] = .ok ⟨[0x4100, 0xE900, 0x3DD8, 0xDE], 15⟩ ∧
    NString.append demo small ⟨.u8, ⟨[], 0⟩⟩ (.ansi 1) [97, 0x82] = .ok ⟨[97, 0xC3, 0xA9], 15⟩ ∧
    NString.get demo small ⟨.u8, ⟨[97, 0xC3, 0xA9], 15⟩⟩ (.ansi 1) 0 = (.ansi 1, .ok ⟨[97, 0x82], 15⟩) ∧
    NString.get demo small ⟨.u16LE, ⟨[97], 15⟩⟩ .u32BE 0 = (.u32BE, .dangling) := by
  refine ⟨by simp [Holds, units]; decide, ?_, ?_, ?_, ?_, ?_, ?_, ?_, ?_⟩
  · intro x hx; simp at hx; rcases hx with rfl | rfl <;> simp [Scalar, Lost]
  · exact C93_example.2.1
  · exact ⟨by decide, by decide⟩
  · exact ⟨by decide, [97, 0x82], C93_example.1, by decide⟩
  all_goals decide +kernel

end Verif.NText
