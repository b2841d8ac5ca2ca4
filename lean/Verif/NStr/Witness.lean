import Verif.NStr.Props

/-!
C58: counterexamples, and concrete histories meeting the hypotheses of the `_partial` theorems.
-/

namespace Verif.NStr

/-! ### Counterexamples that hold in every state -/

/-- C58 does not hold (capacity): an empty NString that owns its buffer and goes to a narrower encoding
ends with a recorded capacity larger than the storage, whatever the buffer.  `SetEncoding` rescales the
capacity once inside `ClearAndUpdateEncoding` (861) and again itself (182). -/
theorem C58_capacity_fails (C : Conv) (fail : Nat → Bool) {s : St} {c : Nat → Nat} {p : Nat} {b : Blk}
    (h : Inv s (plus c p)) (hb : s.blk p = some b) (hs : b.shared = false) (ht : b.text = []) (e : Enc)
    (hw : width e < width b.enc) (hsmall : b.bytes < 2 ^ 60) :
    ∃ s' x, setEncoding C fail s p e = .ret .ok s' p ∧ s'.blk p = some x ∧ x.enc = e ∧ x.bytes = b.bytes ∧
      b.bytes < (x.cap + 1) * width e := by
  obtain ⟨hp, hc, h1, h2, h3⟩ := h.excl hb hs
  have he : b.enc ≠ e := by rintro rfl; omega
  obtain ⟨g0, g1, g2, g3⟩ := h3
  have hbpos : 0 < b.bytes := by rw [← g1]; exact Nat.mul_pos (Nat.succ_pos _) (width_pos _)
  have hlt : ¬ b.bytes < width e := by
    have : 16 ≤ b.bytes := Nat.le_of_dvd hbpos g2
    have := Nat.le_of_dvd (by decide) (width_dvd e)
    omega
  have hne : width b.enc ≠ width e := by omega
  have e1 : caue fail s p e = .ret .ok (s.set p (some { relabel b b.enc e with text := [] })) p := by
    unfold caue; rw [hb]; dsimp only; rw [if_neg he, if_neg (by rw [hs]; decide), if_neg hlt]
  have e2 : setEncoding C fail s p e =
      .ret .ok ((s.set p (some { relabel b b.enc e with text := [] })).set p
        (some (relabel { relabel b b.enc e with text := [] } b.enc e))) p := by
    unfold setEncoding; rw [hb]; dsimp only; rw [if_neg he, if_pos ht, e1]; dsimp only
    unfold stale
    have hget : (s.set p (some { relabel b b.enc e with text := [] })).blk p =
      some { relabel b b.enc e with text := [] } := by simp [St.set]
    rw [hget]; dsimp only
    rw [if_neg (show ¬ ({ relabel b b.enc e with text := [] } : Blk).shared = true by
      show ¬ b.shared = true; rw [hs]; decide)]
  refine ⟨_, relabel { relabel b b.enc e with text := [] } b.enc e, e2, by simp [St.set], rfl, rfl, ?_⟩
  have q1 : (rescale b.cap (width b.enc) (width e) + 1) * width e = b.bytes :=
    rescale_good g1 (width_pos _) (width_dvd _) g2 (by omega)
  dsimp only [relabel]
  rw [if_pos hne, if_pos hne]
  -- the second rescaling, of a capacity that is already right
  generalize hk : rescale b.cap (width b.enc) (width e) = k at q1
  have hB : (k + 1) * width b.enc < 2 ^ 63 := by
    have h4 : width b.enc ≤ 4 := by cases b.enc <;> simp [width]
    have h5 : k + 1 ≤ b.bytes := by rw [← q1]; exact Nat.le_mul_of_pos_right _ (width_pos _)
    have : (k + 1) * width b.enc ≤ b.bytes * 4 := Nat.mul_le_mul h5 h4
    omega
  have hwd : width e ∣ width b.enc := by
    revert hw; cases b.enc <;> cases e <;> simp [width]
  have q2 : (rescale k (width b.enc) (width e) + 1) * width e = (k + 1) * width b.enc := by
    obtain ⟨m, hm⟩ := hwd
    have hmpos : 0 < m := by
      rcases Nat.eq_zero_or_pos m with h0 | h0
      · rw [h0] at hm; have := width_pos b.enc; omega
      · exact h0
    have h5 : k + 1 ≤ (k + 1) * width b.enc := Nat.le_mul_of_pos_right _ (width_pos _)
    have f1 : (k + 1) % 2 ^ 64 = k + 1 := Nat.mod_eq_of_lt (by omega)
    have f2 : (k + 1) * width b.enc % 2 ^ 64 = (k + 1) * width b.enc := Nat.mod_eq_of_lt (by omega)
    have f3 : (k + 1) * width b.enc / width e = (k + 1) * m := by
      rw [hm, show (k + 1) * (width e * m) = width e * ((k + 1) * m) by ac_rfl]
      exact Nat.mul_div_cancel_left _ (width_pos e)
    have f4 : 0 < (k + 1) * m := Nat.mul_pos (Nat.succ_pos _) hmpos
    have f5 : (k + 1) * m ≤ (k + 1) * width b.enc := by
      rw [hm]; exact Nat.mul_le_mul_left _ (Nat.le_mul_of_pos_left _ (width_pos e))
    have f6 : ((k + 1) * m + (2 ^ 64 - 1)) % 2 ^ 64 = (k + 1) * m - 1 := by
      rw [show (k + 1) * m + (2 ^ 64 - 1) = ((k + 1) * m - 1) + 2 ^ 64 by omega, Nat.add_mod_right]
      exact Nat.mod_eq_of_lt (by omega)
    unfold rescale
    rw [f1, f2, f3, f6, Nat.sub_add_cancel f4, hm]; ac_rfl
  rw [q2, ← q1]
  exact Nat.mul_lt_mul_of_pos_left hw (Nat.succ_pos _)

/-- C58 does not hold (text): switching a non-empty NString between UTF-16LE and UTF-16BE or between
UTF-32LE and UTF-32BE reports success and leaves the handle with a freed block, in every state. -/
theorem C58_byte_order_fails (C : Conv) (fail : Nat → Bool) {s : St} {c : Nat → Nat} {p : Nat} {b : Blk}
    (h : Inv s (plus c p)) (hb : s.blk p = some b) (ht : b.text ≠ []) (e : Enc) (hd : endian b.enc e = true)
    {u : List Nat} (hconv : C.conv b.enc e b.text = some u) (hlen : u.length ≤ b.text.length) {s' : St} {q : Nat}
    (hr : setEncoding C fail s p e = .ret .ok s' q) : s'.blk q = none := by
  have he : b.enc ≠ e := by intro h; rw [h] at hd; revert hd; cases e <;> simp [endian]
  have hpos : 0 < b.text.length := List.length_pos_iff.mpr ht
  have hcl : cls b.enc = b.enc := by revert hd; cases b.enc <;> simp [cls, endian]
  unfold setEncoding at hr; rw [hb] at hr; dsimp only at hr
  rw [if_neg he, if_neg ht] at hr
  unfold convert at hr; rw [if_pos hd] at hr
  unfold endianMove at hr; rw [if_neg ht, hconv] at hr; dsimp only at hr
  obtain ⟨hr1, s1, q1, x, e1, i1, k1, hx, hq⟩ := fill_ok fail h hb b.enc hpos hlen (fun _ => rfl)
  rw [e1] at hr
  rcases hq with ⟨rfl, -, -, hsh⟩ | ⟨rfl, -, -⟩
  · dsimp only at hr
    rw [hx] at hr; dsimp only at hr
    obtain ⟨-, -, f1, f2, -⟩ := i1.excl hx hsh
    unfold release at hr
    have hget : (s1.set q1 (some { x with enc := e })).blk q1 = some { x with enc := e } := by simp [St.set]
    rw [hget] at hr; dsimp only at hr
    rw [if_neg (by rw [f1]; decide), if_pos (by omega)] at hr
    cases hr
    simp [St.set]
  · dsimp only at hr
    obtain ⟨s2, e2, -⟩ := release_ok i1
    rw [e2] at hr; cases hr

/-- C58 does not hold (text): whenever a conversion of non-empty text fails, the text is gone, not just
unconverted. -/
theorem C58_failure_loses_text (C : Conv) (fail : Nat → Bool) {s : St} {c : Nat → Nat} {p : Nat} {b : Blk}
    (h : Inv s (plus c p)) (hb : s.blk p = some b) (ht : b.text ≠ []) (e : Enc) (hd : dangling b.enc e = false)
    (ha : bothAnsi b.enc e = false) (he : b.enc ≠ e) {hr : Hr} {s' : St} {q : Nat} (hbad : hr ≠ .ok)
    (hres : setEncoding C fail s p e = .ret hr s' q) : ∃ x, s'.blk q = some x ∧ x.text = [] := by
  obtain ⟨hr1, s1, q1, x, e1, i1, k1, hx, h1, h2, h3⟩ := setEncoding_ok C fail h hb e (.inr (.inr ⟨ht, hd⟩))
  rw [hres] at e1; cases e1
  rcases h3 he ht ha with hh | hh
  · exact absurd hh.1 hbad
  · exact ⟨x, hx, hh.2⟩

/-! ### Concrete histories -/

/-- no code page tables -/
def noAnsi : Enc → Enc → List Nat → Option (List Nat) := fun _ _ t => some t

def C0 : Conv := utfConv noAnsi
def never : Nat → Bool := fun _ => false

def runOps (fail : Nat → Bool) (w : World) : List Op → Option World
  | [] => some w
  | o :: os => match step C0 fail w o with
    | none => none
    | some w => runOps fail w os

def w0 : World := ⟨St.init, []⟩

/-- Boolean form of `Allowed` -/
def safeB (b : Blk) (e : Enc) : Bool :=
  decide (b.enc = e) ||
  (b.text.isEmpty && (b.ro || decide (2 < b.iRef) || (decide (b.iRef = 1) && decide (width b.enc = width e)))) ||
  (!b.text.isEmpty && !dangling b.enc e)

def allowedB (w : World) : Op → Bool
  | .new _ _ => true
  | .share i => decide (i < w.hs.length)
  | .del i => decide (i < w.hs.length)
  | .setString i _ _ => decide (i < w.hs.length)
  | .clear i => decide (i < w.hs.length)
  | .setCopy i j => decide (i < w.hs.length ∧ j < w.hs.length ∧ i ≠ j)
  | .setMove i j => decide (i < w.hs.length ∧ j < w.hs.length ∧ i ≠ j)
  | .setEncoding i e => match w.hs[i]? with
    | none => false
    | some p => match w.st.blk p with
      | none => false
      | some b => safeB b e

theorem allowed_of_B {w : World} {op : Op} (h : allowedB w op = true) : Allowed w op := by
  cases op with
  | new e t => trivial
  | share i => exact of_decide_eq_true (p := i < w.hs.length) h
  | del i => exact of_decide_eq_true (p := i < w.hs.length) h
  | setString i e t => exact of_decide_eq_true (p := i < w.hs.length) h
  | clear i => exact of_decide_eq_true (p := i < w.hs.length) h
  | setCopy i j => exact of_decide_eq_true (p := i < w.hs.length ∧ j < w.hs.length ∧ i ≠ j) h
  | setMove i j => exact of_decide_eq_true (p := i < w.hs.length ∧ j < w.hs.length ∧ i ≠ j) h
  | setEncoding i e =>
    unfold allowedB at h; dsimp only at h
    cases hp : w.hs[i]? with
    | none => rw [hp] at h; cases h
    | some p =>
      rw [hp] at h; dsimp only at h
      cases hb : w.st.blk p with
      | none => rw [hb] at h; cases h
      | some b =>
        rw [hb] at h; dsimp only at h
        refine ⟨p, b, hp, hb, ?_⟩
        unfold safeB at h
        simp only [Bool.or_eq_true, Bool.and_eq_true, decide_eq_true_eq, List.isEmpty_iff, Bool.not_eq_true',
          List.isEmpty_eq_false_iff] at h
        unfold Safe
        rcases h with (h | ⟨h1, (h | h) | h⟩) | h
        · exact .inl h
        · exact .inr (.inl ⟨h1, .inl h⟩)
        · exact .inr (.inl ⟨h1, .inr (.inl h)⟩)
        · exact .inr (.inl ⟨h1, .inr (.inr h)⟩)
        · exact .inr (.inr h)

def runB (fail : Nat → Bool) (w : World) : List Op → Option World
  | [] => some w
  | o :: os => if allowedB w o then
      match step C0 fail w o with
      | none => none
      | some w => runB fail w os
    else none

theorem reach_of_B {fail : Nat → Bool} {w w' : World} {ops : List Op} (h : Reach C0 fail w)
    (hr : runB fail w ops = some w') : Reach C0 fail w' := by
  induction ops generalizing w with
  | nil => cases hr; exact h
  | cons o os ih =>
    unfold runB at hr
    by_cases ha : allowedB w o = true
    · rw [if_pos ha] at hr
      cases hs : step C0 fail w o with
      | none => rw [hs] at hr; cases hr
      | some w1 => rw [hs] at hr; exact ih (.step h (allowed_of_B ha) hs) hr
    · rw [if_neg ha] at hr; cases hr

/-- a history meeting the hypotheses of every `_partial` theorem: two handles share "é€" in UTF-8, a third
has a UTF-16BE text; the first goes to UTF-16LE, then to UTF-32LE, an empty one to a code page -/
def demo : List Op :=
  [.new .u8 [0xC3, 0xA9, 0xE2, 0x82, 0xAC], .share 0, .new .u16be [0x4100], .setEncoding 0 .u16le,
   .setEncoding 0 .u32le, .setEncoding 2 .u32be, .new .u8 [], .setEncoding 3 (.ansi 936), .clear 1,
   .setString 1 .u16le [0x20AC], .setEncoding 1 .u8]

theorem demo_runs :
    (runB never w0 demo).map (fun w => view w 0) = some (some (.u32le, [0xE9, 0x20AC])) ∧
    (runB never w0 demo).map (fun w => view w 1) = some (some (.u8, [0xE2, 0x82, 0xAC])) ∧
    (runB never w0 demo).map (fun w => view w 2) = some (some (.u32be, [0x41000000])) ∧
    (runB never w0 demo).map (fun w => view w 3) = some (some (.ansi 936, [])) := by
  refine ⟨?_, ?_, ?_, ?_⟩ <;> decide +kernel

/-- the history is one of those the theorems speak about, and `SetEncoding` of its first handle to UTF-8
is allowed there and succeeds -/
theorem demo_reach : ∃ w p b s' q, Reach C0 never w ∧ w.hs[0]? = some p ∧ w.st.blk p = some b ∧
    b.enc = .u32le ∧ b.text = [0xE9, 0x20AC] ∧ dangling b.enc .u8 = false ∧
    unitsOf b.enc [0xE9, 0x20AC] = some b.text ∧ setEncoding C0 never w.st p .u8 = .ret .ok s' q := by
  have h : ((runB never w0 demo).bind fun w => (w.hs[0]?).bind fun p => (w.st.blk p).map fun b =>
      (b.enc, b.text, match setEncoding C0 never w.st p .u8 with | .ret .ok _ _ => true | _ => false)) =
      some (.u32le, [0xE9, 0x20AC], true) := by decide +kernel
  cases h1 : runB never w0 demo with
  | none => rw [h1] at h; cases h
  | some w =>
    rw [h1, Option.bind_some] at h
    cases h2 : w.hs[0]? with
    | none => rw [h2] at h; cases h
    | some p =>
      rw [h2, Option.bind_some] at h
      cases h3 : w.st.blk p with
      | none => rw [h3] at h; cases h
      | some b =>
        rw [h3, Option.map_some, Option.some.injEq, Prod.mk.injEq, Prod.mk.injEq] at h
        obtain ⟨f1, f2, f3⟩ := h
        cases h4 : setEncoding C0 never w.st p .u8 with
        | ub => rw [h4] at f3; cases f3
        | ret hr s' q =>
          rw [h4] at f3
          cases hr with
          | ok =>
            exact ⟨w, p, b, s', q, reach_of_B .init h1, h2, h3, f1, f2, by rw [f1]; rfl,
              by rw [f1, f2]; rfl, h4⟩
          | _ => cases f3

/-- C58 does not hold (capacity), concretely: an NString gets a UTF-32 text, is cleared, switched to UTF-8
— and the recorded capacity is 255 units in a 64 byte buffer; setting a 100 byte text then writes past the
buffer. -/
theorem C58_overflow_fails :
    (runOps never w0 [.new .u32le [0x41], .clear 0, .setEncoding 0 .u8]).map
      (fun w => (w.hs[0]?.bind w.st.blk).map fun b => (b.cap, b.bytes)) = some (some (255, 64)) ∧
    (runOps never w0 [.new .u32le [0x41], .clear 0, .setEncoding 0 .u8,
      .setString 0 .u8 (List.replicate 100 0x41)]).isNone = true := by
  constructor <;> decide +kernel

/-- C58 does not hold (capacity), the other direction: widening divides twice, and after a second round
the capacity wraps to the largest `size_t`. -/
theorem C58_capacity_wraps_fails :
    (runOps never w0 [.new .u8 [0x41], .clear 0, .setEncoding 0 .u32le, .setString 0 .u8 [],
      .setEncoding 0 .u32le]).map
      (fun w => (w.hs[0]?.bind w.st.blk).map fun b => (b.cap, b.bytes)) = some (some (2 ^ 64 - 1, 16)) := by
  decide +kernel

/-- C58 does not hold (other handles): an empty buffer with two owners; switching one to UTF-16LE relabels
the other one's buffer as UTF-16LE. -/
theorem C58_others_fails :
    (runOps never w0 [.new .u8 [0x41], .clear 0, .share 0]).map (fun w => view w 1) = some (some (.u8, [])) ∧
    (runOps never w0 [.new .u8 [0x41], .clear 0, .share 0, .setEncoding 0 .u16le]).map
      (fun w => view w 1) = some (some (.u16le, [])) := by
  constructor <;> decide +kernel

/-- C58 does not hold (text), concretely: UTF-16LE "A" switched to UTF-16BE leaves a freed block, and so
does UTF-16LE to UTF-32BE, which goes through a temporary; destroying the NString frees it again. -/
theorem C58_byte_order_concrete_fails :
    (runOps never w0 [.new .u16le [0x41], .setEncoding 0 .u16be]).map (fun w => view w 0) = some none ∧
    (runOps never w0 [.new .u16le [0x41], .setEncoding 0 .u32be]).map (fun w => view w 0) = some none ∧
    (runOps never w0 [.new .u16le [0x41], .setEncoding 0 .u16be, .del 0]).isNone = true := by
  refine ⟨?_, ?_, ?_⟩ <;> decide +kernel

/-- C58 does not hold (text): when the allocation for the new text fails, the old text is lost. -/
theorem C58_oom_fails :
    (runOps (fun n => n == 7) w0 [.new .u8 [0x41], .setEncoding 0 .u16le]).map (fun w => view w 0) =
      some (some (.u8, [])) := by decide +kernel

/-- C58 does not hold (text): from one code page to another the bytes are only relabelled, and when the
buffer is shared they are dropped. -/
theorem C58_code_page_fails :
    (runOps never w0 [.new (.ansi 936) [0xB0, 0xA1], .setEncoding 0 (.ansi 1252)]).map (fun w => view w 0) =
      some (some (.ansi 1252, [0xB0, 0xA1])) ∧
    (runOps never w0 [.new (.ansi 936) [0xB0, 0xA1], .share 0, .setEncoding 0 (.ansi 1252)]).map
      (fun w => (view w 0, view w 1)) = some (some (.ansi 1252, []), some (.ansi 936, [0xB0, 0xA1])) := by
  constructor <;> decide +kernel

/-- `Clear` keeps the code page only with memory: a shared string in code page 936 is in the default code page afterwards, and S_OK is reported. -/
theorem C58_clear_fails :
    (runOps (fun n => n == 7) w0 [.new (.ansi 936) [0xB0, 0xA1], .share 0, .clear 0]).map (fun w => view w 0) = some (some (.ansi 0, [])) := by decide +kernel

end Verif.NStr
