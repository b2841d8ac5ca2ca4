import Verif.View.Split
import Verif.View.Cut
import Verif.Utf.Spec
/-!
# Texts of characters in code units: specification and lemmas

A `Code` maps characters (numbers) to sequences of code units. `Sync` is what UTF-8, UTF-16 and UTF-32 have and double byte code pages have not: the first unit of a character is never a
later unit of another one, and no character is the beginning of another one.
-/
namespace Verif.CharView
open Verif.View (Occurs IsLeast IsGreatest dropWhileEnd join)
open Verif.Utf

structure Code where
  enc : Nat → List Nat
  /-- the characters of the code -/
  ok : Nat → Prop
  /-- units that start a character -/
  lead : Nat → Prop

/-- the units of a text -/
def Code.text (C : Code) (t : List Nat) : List Nat := t.flatMap C.enc

/-- all characters are of the code -/
def Code.Ok (C : Code) (t : List Nat) : Prop := ∀ c ∈ t, C.ok c

/-- the index of the first unit of character number `k` -/
def Code.at (C : Code) (t : List Nat) (k : Nat) : Nat := (C.text (t.take k)).length

structure Code.Sync (C : Code) : Prop where
  shape : ∀ c, C.ok c → ∃ l r, C.enc c = l :: r ∧ C.lead l ∧ ∀ x ∈ r, ¬ C.lead x
  pf : ∀ c d, C.ok c → C.ok d → C.enc c <+: C.enc d → c = d

def utf8 : Code := ⟨Spec.utf8, Spec.Scalar, fun u => ¬ (0x80 ≤ u ∧ u < 0xC0)⟩
def utf16 : Code := ⟨Spec.utf16, Spec.Scalar, fun u => ¬ Spec.isLow u⟩
def utf32 : Code := ⟨fun c => [c], Spec.Scalar, fun _ => True⟩
/-- the same with the bytes of each unit in the other order -/
def utf16BE : Code := ⟨fun c => (Spec.utf16 c).map Spec.rev16, Spec.Scalar, fun u => ¬ Spec.isLow (Spec.rev16 u)⟩
def utf32BE : Code := ⟨fun c => [Spec.rev32 c], Spec.Scalar, fun _ => True⟩
/-- a double byte code page: ASCII, or a lead byte and a trail byte (Shift-JIS, GBK, Big5) -/
def dbcs : Code := ⟨fun c => if c < 0x80 then [c] else [c / 256, c % 256], fun c => c < 0x80 ∨ (0x8100 ≤ c ∧ c < 0xFF00 ∧ 0x40 ≤ c % 256), fun _ => True⟩

theorem rev16_of (a b : Nat) (ha : a < 256) (hb : b < 256) : Spec.rev16 (b * 256 + a) = a * 256 + b := by unfold Spec.rev16; omega
theorem rev16_rev16 {x : Nat} (h : x < 0x10000) : Spec.rev16 (Spec.rev16 x) = x := by
  have e : x = x / 256 * 256 + x % 256 := by omega
  have ha : x % 256 < 256 := by omega
  have hb : x / 256 < 256 := by omega
  generalize x / 256 = b at e hb
  generalize x % 256 = a at e ha
  subst e
  rw [rev16_of a b ha hb, rev16_of b a hb ha]
theorem rev32_of (a b c d : Nat) (ha : a < 256) (hb : b < 256) (hc : c < 256) (hd : d < 256) :
    Spec.rev32 (a + 256 * b + 65536 * c + 16777216 * d) = d + 256 * c + 65536 * b + 16777216 * a := by
  unfold Spec.rev32
  have e1 : (a + 256 * b + 65536 * c + 16777216 * d) % 256 = a := by omega
  have e2 : (a + 256 * b + 65536 * c + 16777216 * d) / 256 % 256 = b := by omega
  have e3 : (a + 256 * b + 65536 * c + 16777216 * d) / 65536 % 256 = c := by omega
  have e4 : (a + 256 * b + 65536 * c + 16777216 * d) / 16777216 % 256 = d := by omega
  rw [e1, e2, e3, e4]
  omega
theorem bytes4 {x : Nat} (h : x < 0x110000) : ∃ a b c d, a < 256 ∧ b < 256 ∧ c < 256 ∧ d < 256 ∧ x = a + 256 * b + 65536 * c + 16777216 * d :=
  ⟨x % 256, x / 256 % 256, x / 65536 % 256, 0, by omega, by omega, by omega, by omega, by omega⟩
theorem rev32_inj {x y : Nat} (hx : x < 0x110000) (hy : y < 0x110000) (h : Spec.rev32 x = Spec.rev32 y) : x = y := by
  obtain ⟨a, b, c, d, h1, h2, h3, h4, rfl⟩ := bytes4 hx
  obtain ⟨a', b', c', d', h1', h2', h3', h4', rfl⟩ := bytes4 hy
  rw [rev32_of _ _ _ _ h1 h2 h3 h4, rev32_of _ _ _ _ h1' h2' h3' h4'] at h
  omega

theorem utf8_sync : utf8.Sync := by
  constructor
  · intro c h
    obtain ⟨h1, h2⟩ := h
    simp only [utf8, Spec.utf8]
    split
    · exact ⟨_, _, rfl, by omega, by simp⟩
    · split
      · exact ⟨_, _, rfl, by omega, by simp; omega⟩
      · split
        · exact ⟨_, _, rfl, by omega, by simp; omega⟩
        · exact ⟨_, _, rfl, by omega, by simp; omega⟩
  · intro c d hc hd h
    obtain ⟨h1, h2⟩ := hc
    obtain ⟨h3, h4⟩ := hd
    simp only [utf8, Spec.utf8] at h
    split at h <;> split at h <;> (try split at h) <;> (try split at h) <;> (try split at h) <;> (try split at h) <;>
      (try simp only [List.cons_prefix_cons, List.prefix_nil, List.nil_prefix, List.cons_ne_nil, and_true, and_false] at h) <;> omega

theorem utf16_len {c x : Nat} (hc : Spec.Scalar c) (hx : x ∈ Spec.utf16 c) : x < 0x10000 := by
  obtain ⟨h1, h2⟩ := hc
  unfold Spec.utf16 at hx
  split at hx <;> simp at hx <;> omega

theorem utf16_sync : utf16.Sync := by
  constructor
  · intro c h
    obtain ⟨h1, h2⟩ := h
    simp only [utf16, Spec.utf16, Spec.isLow]
    split
    · exact ⟨_, _, rfl, by omega, by simp⟩
    · exact ⟨_, _, rfl, by omega, by simp; omega⟩
  · intro c d hc hd h
    obtain ⟨h1, h2⟩ := hc
    obtain ⟨h3, h4⟩ := hd
    simp only [utf16, Spec.utf16] at h
    split at h <;> split at h <;>
      (try simp only [List.cons_prefix_cons, List.prefix_nil, List.nil_prefix, List.cons_ne_nil, and_true, and_false] at h) <;> omega

theorem utf32_sync : utf32.Sync :=
  ⟨fun c _ => ⟨c, [], rfl, trivial, by simp⟩, fun c d _ _ h => by simpa [utf32] using h⟩

theorem utf16BE_sync : utf16BE.Sync := by
  constructor
  · intro c h
    obtain ⟨l, r, e, hl, hr⟩ := utf16_sync.shape c h
    have e' : Spec.utf16 c = l :: r := e
    have b : ∀ x ∈ l :: r, x < 0x10000 := fun x hx => utf16_len h (by rw [e']; exact hx)
    refine ⟨Spec.rev16 l, r.map Spec.rev16, by simp [utf16BE, e'], ?_, ?_⟩
    · show ¬ Spec.isLow (Spec.rev16 (Spec.rev16 l))
      rw [rev16_rev16 (b l (by simp))]; exact hl
    · intro x hx
      obtain ⟨y, hy, rfl⟩ := List.mem_map.1 hx
      show ¬ ¬ Spec.isLow (Spec.rev16 (Spec.rev16 y))
      rw [rev16_rev16 (b y (by simp [hy]))]; exact hr y hy
  · intro c d hc hd h
    refine utf16_sync.pf c d hc hd ?_
    have h' := h.map Spec.rev16
    simp only [utf16BE, List.map_map] at h'
    have id16 : ∀ c, Spec.Scalar c → (Spec.utf16 c).map (Spec.rev16 ∘ Spec.rev16) = Spec.utf16 c := by
      intro c hc
      conv => rhs; rw [← List.map_id (Spec.utf16 c)]
      exact List.map_congr_left fun x hx => rev16_rev16 (utf16_len hc hx)
    rw [id16 c hc, id16 d hd] at h'
    exact h'

theorem utf32BE_sync : utf32BE.Sync := by
  refine ⟨fun c _ => ⟨_, [], rfl, trivial, by simp⟩, fun c d hc hd h => ?_⟩
  simp only [utf32BE, List.cons_prefix_cons, List.prefix_nil, and_true] at h
  exact rev32_inj hc.1 hd.1 h

section
variable {C : Code}

@[simp] theorem text_nil : C.text [] = [] := rfl
@[simp] theorem text_cons (c : Nat) (t : List Nat) : C.text (c :: t) = C.enc c ++ C.text t := rfl
@[simp] theorem text_append (t u : List Nat) : C.text (t ++ u) = C.text t ++ C.text u := by simp [Code.text]

theorem text_ne_nil (h : C.Sync) {t : List Nat} (ht : C.Ok t) (h0 : t ≠ []) : C.text t ≠ [] := by
  cases t with
  | nil => exact absurd rfl h0
  | cons c t =>
    obtain ⟨l, r, e, _⟩ := h.shape c (ht c (by simp))
    simp [e]

theorem Code.Ok.tail {c : Nat} {t : List Nat} (h : C.Ok (c :: t)) : C.Ok t := fun x hx => h x (by simp [hx])

theorem prefix_align (h : C.Sync) {s t Q : List Nat} (hs : C.Ok s) (ht : C.Ok t) (e : C.text t = C.text s ++ Q) : ∃ t2, t = s ++ t2 ∧ Q = C.text t2 := by
  induction s generalizing t with
  | nil => exact ⟨t, rfl, by simpa using e.symm⟩
  | cons d s ih =>
    cases t with
    | nil =>
      exfalso
      obtain ⟨l, r, q, _⟩ := h.shape d (hs d (by simp))
      simp [q] at e
    | cons c t =>
      simp only [text_cons, List.append_assoc] at e
      have hcd : c = d := by
        rcases List.append_eq_append_iff.1 e with ⟨x, h1, _⟩ | ⟨x, h1, _⟩
        · exact h.pf c d (ht c (by simp)) (hs d (by simp)) ⟨x, h1.symm⟩
        · exact (h.pf d c (hs d (by simp)) (ht c (by simp)) ⟨x, h1.symm⟩).symm
      subst hcd
      obtain ⟨t2, g1, g2⟩ := ih hs.tail ht.tail (List.append_cancel_left e)
      exact ⟨t2, by simp [g1], g2⟩

/-- an occurrence of the units is an occurrence of the characters -/
theorem align (h : C.Sync) {s t P Q : List Nat} (hs : C.Ok s) (ht : C.Ok t) (h0 : s ≠ []) (e : C.text t = P ++ C.text s ++ Q) :
    ∃ t1 t2, t = t1 ++ s ++ t2 ∧ P = C.text t1 ∧ Q = C.text t2 := by
  induction t generalizing P with
  | nil =>
    have := text_ne_nil h hs h0
    simp at e
    exact absurd e.2.1 this
  | cons c t ih =>
    cases P with
    | nil =>
      obtain ⟨t2, g1, g2⟩ := prefix_align h hs ht (by simpa using e)
      exact ⟨[], t2, by simpa using g1, rfl, g2⟩
    | cons p P =>
      simp only [text_cons, List.append_assoc] at e
      have key : ∃ X, p :: P = C.enc c ++ X := by
        rcases List.append_eq_append_iff.1 e with ⟨x, h1, _⟩ | ⟨x, h1, h2⟩
        · exact ⟨x, h1⟩
        · cases x with
          | nil => exact ⟨[], by simpa using h1.symm⟩
          | cons y x =>
            exfalso
            obtain ⟨l, r, q, _, hr⟩ := h.shape c (ht c (by simp))
            rw [q] at h1
            simp only [List.cons_append, List.cons.injEq] at h1
            cases s with
            | nil => exact h0 rfl
            | cons d s =>
              obtain ⟨l', r', q', hl', _⟩ := h.shape d (hs d (by simp))
              simp only [text_cons, q', List.cons_append, List.cons.injEq] at h2
              exact hr y (by rw [h1.2]; simp) (by rw [← h2.1]; exact hl')
      obtain ⟨X, hX⟩ := key
      rw [hX, List.append_assoc] at e
      obtain ⟨t1, t2, g1, g2, g3⟩ := ih ht.tail (P := X) (by rw [List.append_assoc]; exact List.append_cancel_left e)
      exact ⟨c :: t1, t2, by simp [g1], by rw [hX, g2]; rfl, g3⟩

theorem occurs_iff (h : C.Sync) {s t : List Nat} (hs : C.Ok s) (ht : C.Ok t) (h0 : s ≠ []) (b : Nat) :
    Occurs (C.text t) (C.text s) b ↔ ∃ k, Occurs t s k ∧ b = C.at t k := by
  constructor
  · intro hb
    have e := Verif.View.occurs_split hb
    obtain ⟨t1, t2, g1, g2, _⟩ := align h hs ht h0 e
    refine ⟨t1.length, ⟨by simp [g1], by simp [g1]⟩, ?_⟩
    have := congrArg List.length g2
    have hb1 := hb.1
    simp only [List.length_take] at this
    simp only [Code.at, g1, List.append_assoc, List.take_left]
    omega
  · rintro ⟨k, hk, rfl⟩
    have e := Verif.View.occurs_split hk
    have e' : C.text t = C.text (t.take k) ++ C.text s ++ C.text (t.drop (k + s.length)) := by
      conv => lhs; rw [e]
      simp
    refine ⟨?_, ?_⟩
    · rw [e']; simp [Code.at]
    · rw [e']; simp [Code.at]

/-- character indices and unit indices are in the same order -/
theorem at_lt (h : C.Sync) {t : List Nat} (ht : C.Ok t) {j k : Nat} (hj : j < k) (hk : k ≤ t.length) : C.at t j < C.at t k := by
  have e : t.take k = t.take j ++ (t.take k).drop j := by
    conv => lhs; rw [← List.take_append_drop j (t.take k)]
    rw [List.take_take, Nat.min_eq_left (by omega)]
  have hne : (t.take k).drop j ≠ [] := by
    intro h0
    have := congrArg List.length h0
    simp at this
    omega
  have := text_ne_nil h (fun c hc => ht c (List.mem_of_mem_take (List.mem_of_mem_drop hc))) hne
  have l := List.length_pos_iff.2 this
  unfold Code.at
  rw [e, text_append, List.length_append]
  omega

theorem at_lt_iff (h : C.Sync) {t : List Nat} (ht : C.Ok t) {j k : Nat} (hj : j ≤ t.length) (hk : k ≤ t.length) : C.at t j < C.at t k ↔ j < k := by
  constructor
  · intro hl
    rcases Nat.lt_or_ge j k with g | g
    · exact g
    · rcases Nat.eq_or_lt_of_le g with g | g
      · rw [g] at hl; omega
      · have := at_lt h ht g hj; omega
  · intro hl; exact at_lt h ht hl hk

end
end Verif.CharView
