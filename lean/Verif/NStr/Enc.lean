import Verif.NStr.Ops

/-! `SetString`, `Clear` and `SetEncoding` of NString. -/

namespace Verif.NStr

/-- the part of `SetString` after the encoding is set -/
theorem put_ok (fail : Nat → Bool) {s : St} {c : Nat → Nat} {p : Nat} {b : Blk} (h : Inv s (plus c p))
    (hb : s.blk p = some b) (e : Enc) (t : List Nat) (hw : b.shared = false → cls b.enc = cls e) :
    Post c s (put fail s p e t)
      (fun hr x => cls x.enc = cls e ∧
        ((hr = .ok ∧ x.text = t ∧ (x.shared = true → t = [])) ∨ (hr = .oom ∧ x.text = []))) := by
  unfold put
  obtain ⟨hr, s', q, x, e1, i, k, hx, h1, h2, h3, h4⟩ := clearC_ok h hb e
  rw [e1]; dsimp only
  have hcx : cls x.enc = cls e := by
    rw [h2]
    by_cases hs : b.shared = true
    · rw [if_pos hs, cls_cls]
    · rw [if_neg hs]; exact hw (by simpa using hs)
  by_cases ht : t = []
  · rw [if_pos ht]
    exact ⟨.ok, s', q, x, rfl, i, k, hx, hcx, .inl ⟨rfl, by rw [h3, ht], fun _ => ht⟩⟩
  · rw [if_neg ht]
    have hpos : 0 < t.length := List.length_pos_iff.mpr ht
    refine ((fill_ok fail i hx e hpos (Nat.le_refl _) ?_).keep k).imp fun hr y hy => ?_
    · intro _; rw [← width_cls, hcx, width_cls]
    · rcases hy with ⟨g1, g2, g3, g4⟩ | ⟨g1, g2, g3⟩
      · refine ⟨?_, .inl ⟨g1, g3, fun h => by rw [g4] at h; cases h⟩⟩
        rw [g2]
        by_cases hs : x.shared = true
        · rw [if_pos hs, cls_cls]
        · rw [if_neg hs, hcx]
      · exact ⟨by rw [g2, hcx], .inr ⟨g1, by rw [g3, h3]⟩⟩

theorem cls_ansi {e : Enc} (h : cls e = .ansi 0) : width e = 1 ∧ ∃ c, e = .ansi c := by
  cases e <;> simp [cls] at h ⊢ <;> rfl

theorem cls_eq {e e' : Enc} (h : cls e = cls e') (hn : ∀ c, e' ≠ .ansi c) : e = e' := by
  cases e' <;> cases e <;> simp [cls] at h ⊢ <;> exact absurd rfl (hn _)

/-- `SetString` of a view: on success the handle has the encoding and the text of the view -/
theorem setString_ok (fail : Nat → Bool) {s : St} {c : Nat → Nat} {p : Nat} (h : Inv s (plus c p))
    (e : Enc) (t : List Nat) :
    Post c s (setString fail s p e t) (fun hr x => hr = .ok → x.enc = e ∧ x.text = t) := by
  obtain ⟨b, hb, -, -⟩ := h.handle
  have other : (∀ cp, e ≠ .ansi cp) →
      Post c s (match caue fail s p e with
        | .ub => .ub
        | .ret _ s p => put fail s p e t)
        (fun hr x => hr = .ok → x.enc = e ∧ x.text = t) := by
    intro hna
    have hcaue : Post c s (caue fail s p e) (fun _ x => x.shared = false → cls x.enc = cls e) := by
      by_cases he : b.enc = e
      · refine ⟨.ok, s, p, b, ?_, h, Keep.refl _ _, hb, fun _ => by rw [he]⟩
        unfold caue; rw [hb]; dsimp only; rw [if_pos he]
      · refine (caue_ok fail h hb e he).imp fun hr x hx hsh => ?_
        rcases hx.2 with ⟨-, h1 | ⟨-, h1, -⟩⟩ | ⟨-, h1, h2⟩
        · rw [h1]
        · rw [h1] at hsh; cases hsh
        · rw [h1, h2]; rfl
    obtain ⟨hr, s', q, x, e1, i, k, hx, hw⟩ := hcaue
    rw [e1]; dsimp only
    refine ((put_ok fail i hx e t hw).keep k).imp fun hr y hy hok => ?_
    rcases hy.2 with ⟨-, h2, -⟩ | ⟨h1, -⟩
    · exact ⟨cls_eq hy.1 hna, h2⟩
    · rw [h1] at hok; cases hok
  unfold setString; rw [hb]; dsimp only
  cases e with
  | ansi cp =>
    dsimp only
    have hpre : Post c s (if cls b.enc = .ansi 0 then .ret .ok s p else caue fail s p (.ansi 0))
        (fun _ x => cls x.enc = .ansi 0) := by
      by_cases hc : cls b.enc = .ansi 0
      · rw [if_pos hc]; exact ⟨.ok, s, p, b, rfl, h, Keep.refl _ _, hb, hc⟩
      · rw [if_neg hc]
        refine (caue_ok fail h hb (.ansi 0) (fun h => hc (by rw [h]; rfl))).imp fun hr x hx => ?_
        rcases hx.2 with ⟨-, h1 | ⟨h1, -⟩⟩ | ⟨-, -, h2⟩
        · rw [h1]; rfl
        · cases h1
        · rw [h2]; rfl
    obtain ⟨hr, s', q, x, e1, i, k, hx, hw⟩ := hpre
    rw [e1]; dsimp only
    obtain ⟨hr2, s2, q2, y, e2, i2, k2, hy, hcy, hty⟩ := put_ok fail i hx (.ansi cp) t (fun _ => hw)
    rw [e2]
    rcases hty with ⟨rfl, h2, h3⟩ | ⟨rfl, h2⟩
    · dsimp only
      refine ((setANSI_ok fail i2 hy cp (cls_ansi hcy).1).keep (k.trans k2)).imp fun hr z hz hok => ?_
      rcases hz with ⟨-, g2, g3, -⟩ | ⟨g1, -⟩
      · refine ⟨g2, ?_⟩
        rw [g3]
        by_cases hcond : y.shared = true ∧ y.enc ≠ .ansi cp
        · rw [if_pos hcond]
          exact (h3 hcond.1).symm
        · rw [if_neg hcond, h2]
      · rw [g1] at hok; cases hok
    · dsimp only
      exact ⟨.oom, s2, q2, y, rfl, i2, k.trans k2, hy, fun h => by cases h⟩
  | u8 => exact other (by simp)
  | u16le => exact other (by simp)
  | u16be => exact other (by simp)
  | u32le => exact other (by simp)
  | u32be => exact other (by simp)

/-- `Clear` keeps the encoding, and a code page if the storage is owned -/
def ClearEnc (b x : Blk) : Prop := ((∀ cp, b.enc ≠ .ansi cp) → x.enc = b.enc) ∧ (∀ cp, b.enc = .ansi cp → b.shared = false → x.enc = b.enc)

/-- `Clear` -/
theorem clear_ok (fail : Nat → Bool) {s : St} {c : Nat → Nat} {p : Nat} {b : Blk} (h : Inv s (plus c p)) (hb : s.blk p = some b) :
    Post c s (clear fail s p) (fun hr x => hr = .ok ∧ x.text = [] ∧ ClearEnc b x) := by
  unfold clear; rw [hb]; dsimp only
  by_cases ht : b.text = []
  · rw [if_pos ht]; exact ⟨.ok, s, p, b, rfl, h, Keep.refl _ _, hb, rfl, ht, fun _ => rfl, fun _ _ _ => rfl⟩
  · rw [if_neg ht]
    have other : ∀ e, b.enc = e → (∀ cp, e ≠ .ansi cp) → Post c s (clearC s p e) (fun hr x => hr = .ok ∧ x.text = [] ∧  ClearEnc b x) := fun e he hn =>
      (clearC_ok h hb e).imp fun hr x hx => ⟨hx.1, hx.2.2.1, fun _ => by
        rw [hx.2.1, he]
        have : cls e = e := by cases e with
          | ansi cp => exact absurd rfl (hn cp)
          | _ => rfl
        rw [this]; split <;> rfl, fun cp h _ => absurd (he ▸ h) (hn cp)⟩
    cases he : b.enc with
    | ansi cp =>
      dsimp only
      obtain ⟨hr, s', q, x, e1, i, k, hx, h1, h2, h3, h4⟩ := clearC_ok h hb (.ansi 0)
      rw [e1]; dsimp only
      by_cases hc : cp = 0
      · rw [if_pos hc]; exact ⟨.ok, s', q, x, rfl, i, k, hx, rfl, h3, fun hn => absurd he (hn cp), fun _ _ hs => by
          rw [h2, if_neg (by rw [hs]; decide)]⟩
      · rw [if_neg hc]
        have hwx : width x.enc = 1 := by
          rw [h2]; split
          · rfl
          · rw [he]; rfl
        obtain ⟨hr2, s2, q2, y, e2, i2, k2, hy, hq⟩ := setANSI_ok fail i hx cp hwx
        rw [e2]; dsimp only
        refine ⟨.ok, s2, q2, y, rfl, i2, k.trans k2, hy, rfl, ?_, fun hn => absurd he (hn cp), fun _ _ hs => ?_⟩
        · rcases hq with ⟨-, -, g, -⟩ | ⟨-, -, -, g⟩
          · rw [g]; split <;> simp [h3]
          · rw [g, h3]
        · rcases hq with ⟨-, g, -, -⟩ | ⟨-, g, -, -⟩
          · rw [g, he]
          · rw [h4, hs] at g; cases g
    | u8 => exact other _ he (by intro cp h; cases h)
    | u16le => exact other _ he (by intro cp h; cases h)
    | u16be => exact other _ he (by intro cp h; cases h)
    | u32le => exact other _ he (by intro cp h; cases h)
    | u32be => exact other _ he (by intro cp h; cases h)

/-- `_szSrc` is destroyed at the end of `SetEncoding` -/
theorem dropSrc_ok {s : St} {c : Nat → Nat} {src : Nat} {r : Res} {Q : Hr → Enc → List Nat → Prop}
    (h : Post (plus c src) s r (fun hr x => Q hr x.enc x.text)) :
    Post c s (dropSrc src r) (fun hr x => Q hr x.enc x.text) := by
  obtain ⟨hr, s', q, x, rfl, i, k, hx, hq⟩ := h
  rw [plus_comm] at i
  obtain ⟨s2, e2, i2, k2, -⟩ := release_ok i
  obtain ⟨y, hy, he, ht⟩ := bview_get (by rw [k2 q (.inr (plus_self c q))]; exact bview_some hx)
  unfold dropSrc; dsimp only; rw [e2]
  exact ⟨hr, s2, q, y, rfl, i2, k.plus.trans k2.plus, hy, by dsimp only; rw [he, ht]; exact hq⟩

/-- `Transform` into an empty handle of the right class -/
theorem transform_ok (C : Conv) (fail : Nat → Bool) {s : St} {c : Nat → Nat} {p : Nat} {b : Blk}
    (h : Inv s (plus c p)) (hb : s.blk p = some b) (hbt : b.text = []) (old e : Enc) {t : List Nat} (ht : t ≠ [])
    (hw : b.shared = false → b.enc = e) (hc : b.shared = true → cls e = e) :
    Post c s (transform C fail s p old e t) (fun hr x =>
      (hr = .ok ∧ x.enc = e ∧ C.conv old e t = some x.text) ∨ (hr ≠ .ok ∧ x.text = [])) := by
  unfold transform
  cases hcv : C.conv old e t with
  | none => exact ⟨.failed, s, p, b, rfl, h, Keep.refl _ _, hb, .inr ⟨by decide, hbt⟩⟩
  | some u =>
    dsimp only
    have hpos := C.pos old e t ht
    refine (fill_ok fail h hb e (Nat.lt_of_lt_of_le hpos (Nat.le_max_left _ _)) (Nat.le_max_right _ _)
      (fun hs => by rw [hw hs])).imp fun hr x hx => ?_
    rcases hx with ⟨g1, g2, g3, -⟩ | ⟨g1, g2, g3⟩
    · refine .inl ⟨g1, ?_, by rw [g3]⟩
      rw [g2]
      by_cases hs : b.shared = true
      · rw [if_pos hs]; exact hc hs
      · rw [if_neg hs]; exact hw (by simpa using hs)
    · exact .inr ⟨by rw [g1]; decide, by rw [g3, hbt]⟩

theorem toANSI_ok (C : Conv) (fail : Nat → Bool) {s : St} {c : Nat → Nat} (h : Inv s c) (old : Enc) (cp : Nat)
    {t : List Nat} (ht : t ≠ []) :
    Post c s (toANSI C fail s (stat old) old (.ansi cp) t) (fun hr x =>
      (hr = .ok ∧ x.enc = .ansi cp ∧ C.conv old (.ansi cp) t = some x.text) ∨ (hr ≠ .ok ∧ x.text = [])) := by
  unfold toANSI
  obtain ⟨hr, s1, q1, x, e1, i1, k1, hx, h1, h2, h3, h4⟩ :=
    clearC_ok (h.addStat old) (h.stat old) (.ansi 0)
  rw [e1]; dsimp only
  have hsx : x.shared = true := h4
  have hpos : 0 < t.length * 2 := by have := List.length_pos_iff.mpr ht; omega
  obtain ⟨hr2, s2, q2, y, e2, i2, k2, hy, hq⟩ := fill_ok fail i1 hx (.ansi 0) (t := []) hpos (by simp)
    (fun hh => by rw [hsx] at hh; cases hh)
  rw [e2]
  rcases hq with ⟨rfl, g2, g3, g4⟩ | ⟨rfl, g2, g3⟩
  · dsimp only
    rw [if_pos hsx] at g2
    obtain ⟨hr3, s3, q3, z, e3, i3, k3, hz, hq3⟩ := setANSI_ok fail i2 hy cp (by rw [g2]; rfl)
    rw [e3]; dsimp only
    rcases hq3 with ⟨-, f1, f2, f3⟩ | ⟨-, f1, -⟩
    · refine (transform_ok C fail i3 hz ?_ old (.ansi cp) ht (fun _ => f1) (fun hh => ?_)).keep
        ((k1.trans k2).trans k3)
      · rw [f2]; split <;> simp [g3]
      · rw [f3 g4] at hh; cases hh
    · rw [g4] at f1; cases f1
  · dsimp only
    exact ⟨.oom, s2, q2, y, rfl, i2, k1.trans k2, hy, .inr ⟨by decide, by rw [g3, h3]⟩⟩

/-- the conversions of non-empty text that use the moving `TransformEndian` -/
def dangling (o e : Enc) : Bool := endian o e || (viaMid o e).isSome

/-- both are ANSI code pages -/
def bothAnsi : Enc → Enc → Bool
  | .ansi _, .ansi _ => true
  | _, _ => false

theorem convert_ok (C : Conv) (fail : Nat → Bool) {s : St} {c : Nat → Nat} {p : Nat} {b : Blk}
    (h : Inv s (plus c p)) (hb : s.blk p = some b) (hbt : b.text ≠ []) (e : Enc)
    (hend : dangling b.enc e = false) :
    Post c s (convert C fail s p b e) (fun hr x => bothAnsi b.enc e = false →
      (hr = .ok ∧ x.enc = e ∧ C.conv b.enc e b.text = some x.text) ∨ (hr ≠ .ok ∧ x.text = [])) := by
  unfold dangling at hend
  rw [Bool.or_eq_false_iff] at hend
  have hmid : viaMid b.enc e = none := by
    cases hm : viaMid b.enc e with
    | none => rfl
    | some x => rw [hm] at hend; cases hend.2
  unfold convert
  rw [if_neg (by rw [hend.1]; decide), hmid]; dsimp only
  have tr : ∀ e, cls e = e → Post c s (dropSrc p (transform C fail s (stat b.enc) b.enc e b.text))
      (fun hr x => bothAnsi b.enc e = false →
        (hr = .ok ∧ x.enc = e ∧ C.conv b.enc e b.text = some x.text) ∨ (hr ≠ .ok ∧ x.text = [])) := by
    intro e hce
    refine dropSrc_ok (Q := fun hr en t => bothAnsi b.enc e = false →
      (hr = .ok ∧ en = e ∧ C.conv b.enc e b.text = some t) ∨ (hr ≠ .ok ∧ t = [])) ?_
    exact (transform_ok C fail (h.addStat b.enc) (h.stat b.enc) rfl b.enc e hbt
      (fun hh => by cases hh) (fun _ => hce)).imp fun hr x hx _ => hx
  have ta : ∀ cp, Post c s (dropSrc p (toANSI C fail s (stat b.enc) b.enc (.ansi cp) b.text))
      (fun hr x => bothAnsi b.enc (.ansi cp) = false →
        (hr = .ok ∧ x.enc = .ansi cp ∧ C.conv b.enc (.ansi cp) b.text = some x.text) ∨
          (hr ≠ .ok ∧ x.text = [])) := by
    intro cp
    refine dropSrc_ok (Q := fun hr en t => bothAnsi b.enc (.ansi cp) = false →
      (hr = .ok ∧ en = .ansi cp ∧ C.conv b.enc (.ansi cp) b.text = some t) ∨ (hr ≠ .ok ∧ t = [])) ?_
    exact (toANSI_ok C fail h b.enc cp hbt).imp fun hr x hx _ => hx
  by_cases ha : bothAnsi b.enc e = true
  · cases he : b.enc with
    | ansi old =>
      cases e with
      | ansi cp =>
        dsimp only
        unfold ansiToAnsi
        obtain ⟨hr, s1, q, x, e1, i, k, hx, hq⟩ := setANSI_ok fail h hb cp (by rw [he]; rfl)
        rw [e1]
        rcases hq with ⟨rfl, -⟩ | ⟨rfl, -⟩
        · dsimp only
          obtain ⟨s2, e2, i2, k2, -⟩ := release_ok (i.addStat (.ansi old))
          rw [e2]
          obtain ⟨y, hy, -, -⟩ := bview_get (by rw [k2 q (.inr (plus_self c q))]; exact bview_some hx)
          exact ⟨.ok, s2, q, y, rfl, i2, k.trans k2.plus, hy, fun h => by cases h⟩
        · dsimp only
          obtain ⟨s2, e2, i2, k2, -⟩ := release_ok i
          rw [e2]
          exact ⟨.oom, s2, stat (.ansi old), emptyBlk (.ansi old), rfl, i2.addStat _, k.trans k2, i2.stat _,
            fun h => by cases h⟩
      | _ => rw [he] at ha; cases ha
    | _ => rw [he] at ha; cases e <;> cases ha
  · have ha' : bothAnsi b.enc e = false := by simpa using ha
    cases e with
    | ansi cp =>
      have := ta cp
      revert this ha'
      cases hen : b.enc with
      | ansi old => intro hh; cases hh
      | _ => intro _ hh; exact hh
    | u8 => exact cast (by congr 1; cases b.enc <;> rfl) (tr .u8 rfl)
    | u16le => exact cast (by congr 1; cases b.enc <;> rfl) (tr .u16le rfl)
    | u16be => exact cast (by congr 1; cases b.enc <;> rfl) (tr .u16be rfl)
    | u32le => exact cast (by congr 1; cases b.enc <;> rfl) (tr .u32le rfl)
    | u32be => exact cast (by congr 1; cases b.enc <;> rfl) (tr .u32be rfl)

/-- the handle goes to the empty default of `e` -/
theorem resetTo_ok (fail : Nat → Bool) {s : St} {c : Nat → Nat} {q : Nat} (i : Inv s (plus c q)) (e : Enc) :
    Post c s (resetTo fail s q e) (fun hr x => x.text = [] ∧ (hr = .ok → x.enc = e)) := by
  unfold resetTo
  cases e with
  | ansi cp =>
    dsimp only
    obtain ⟨hr, s1, q1, x, e1, i1, k1, hx, h1, h2, h3, h4⟩ := detachRelease_ok i (.ansi 0)
    rw [e1]; dsimp only
    refine ((setANSI_ok fail i1 hx cp (by rw [h2]; rfl)).keep k1).imp fun hr y hy => ?_
    rcases hy with ⟨g1, g2, g3, -⟩ | ⟨g1, -, g3, g4⟩
    · exact ⟨by rw [g3]; split <;> simp [h3], fun _ => g2⟩
    · exact ⟨by rw [g4, h3], fun h => by rw [g1] at h; cases h⟩
  | _ => exact (detachRelease_ok i _).imp fun hr x hx => ⟨hx.2.2.1, fun _ => hx.2.1⟩

/-- the calls of `SetEncoding` on a block for which the memory stays consistent -/
def Safe (b : Blk) (e : Enc) : Prop :=
  b.enc = e ∨
  (b.text = [] ∧ (b.ro = true ∨ 2 < b.iRef ∨ (b.iRef = 1 ∧ width b.enc = width e))) ∨
  (b.text ≠ [] ∧ dangling b.enc e = false)

theorem setEncoding_ok (C : Conv) (fail : Nat → Bool) {s : St} {c : Nat → Nat} {p : Nat} {b : Blk}
    (h : Inv s (plus c p)) (hb : s.blk p = some b) (e : Enc) (hsafe : Safe b e) :
    Post c s (setEncoding C fail s p e) (fun hr x =>
      (b.enc = e → hr = .ok ∧ x.enc = e ∧ x.text = b.text) ∧
      (b.enc ≠ e → b.text = [] → x.text = [] ∧ (hr = .ok → x.enc = e)) ∧
      (b.enc ≠ e → b.text ≠ [] → bothAnsi b.enc e = false →
        (hr = .ok ∧ x.enc = e ∧ C.conv b.enc e b.text = some x.text) ∨ (hr ≠ .ok ∧ x.text = []))) := by
  unfold setEncoding; rw [hb]; dsimp only
  by_cases he : b.enc = e
  · rw [if_pos he]
    exact ⟨.ok, s, p, b, rfl, h, Keep.refl _ _, hb, fun _ => ⟨rfl, he, rfl⟩, fun h => absurd he h,
      fun h => absurd he h⟩
  · rw [if_neg he]
    by_cases ht : b.text = []
    · rw [if_pos ht]
      have hcase : b.ro = true ∨ 2 < b.iRef ∨ (b.iRef = 1 ∧ width b.enc = width e) := by
        rcases hsafe with h | h | h
        · exact absurd h he
        · exact h.2
        · exact absurd ht h.1
      suffices Post c s (match caue fail s p e with
          | .ub => .ub
          | .ret _ s q => stale fail s q p b.enc e) (fun hr x => x.text = [] ∧ (hr = .ok → x.enc = e)) from
        this.imp fun hr x hx => ⟨fun h => absurd h he, fun _ _ => hx, fun _ h => absurd ht h⟩
      by_cases hs : b.shared = true
      · obtain ⟨hr, s1, q, x, e1, i1, k1, hx, -⟩ := caue_ok fail h hb e he
        rw [e1]; dsimp only
        -- the old block is still shared after the handle has left it
        have hst : ∃ b', s1.blk p = some b' ∧ b'.shared = true := by
          obtain ⟨b0, hb0, hlo, hhi⟩ := h.handle
          rw [hb] at hb0; cases hb0
          by_cases hp : p < 6
          · obtain ⟨en, rfl⟩ := lt_stat hp
            exact ⟨_, i1.stat en, rfl⟩
          · obtain ⟨g1, g2, g3⟩ := hhi (by omega)
            have hc2 : 2 ≤ c p := by
              rcases hcase with hh | hh | hh
              · rw [g1] at hh; cases hh
              · omega
              · unfold Blk.shared at hs; rw [g1, hh.1] at hs; cases hs
            obtain ⟨b', hb'⟩ := i1.get (p := p) (by omega) (by unfold plus; split <;> omega)
            refine ⟨b', hb', ?_⟩
            obtain ⟨f1, f2, -⟩ := i1.live p b' (by omega) hb'
            have : 1 < b'.iRef := by
              rw [f2]; unfold plus; split <;> omega
            unfold Blk.shared; rw [f1]; simpa using this
        obtain ⟨b', hb', hs'⟩ := hst
        unfold stale; rw [hb']; dsimp only
        rw [if_pos hs']
        exact (resetTo_ok fail i1 e).keep k1
      · have hs' : b.shared = false := by simpa using hs
        obtain ⟨hp, hc, h1, h2, h3⟩ := h.excl hb hs'
        have hw : width b.enc = width e := by
          rcases hcase with hh | hh | hh
          · rw [h1] at hh; cases hh
          · omega
          · exact hh.2
        have hlt : ¬ b.bytes < width e := by
          obtain ⟨_, g1, g2, -⟩ := h3
          have := Nat.mul_pos (Nat.succ_pos b.cap) (width_pos b.enc)
          have : 16 ≤ b.bytes := Nat.le_of_dvd (by rw [← g1]; exact this) g2
          have := Nat.le_of_dvd (by decide) (width_dvd e)
          omega
        have e1 : caue fail s p e = .ret .ok (s.set p (some { relabel b b.enc e with text := [] })) p := by
          unfold caue; rw [hb]; dsimp only; rw [if_neg he, if_neg hs, if_neg hlt]
        rw [e1]; dsimp only
        obtain ⟨i, k⟩ := set_ok (b' := { relabel b b.enc e with text := [] }) h hb hs' h1 rfl
          (relabel_good h3 e [] (by simp))
        have hget : (s.set p (some { relabel b b.enc e with text := [] })).blk p =
          some { relabel b b.enc e with text := [] } := by simp [St.set]
        unfold stale; rw [hget]; dsimp only
        have hs2 : ¬ ({ relabel b b.enc e with text := [] } : Blk).shared = true := hs
        rw [if_neg hs2]
        have hg2 : Good (relabel { relabel b b.enc e with text := [] } b.enc e) := by
          have := relabel_good h3 e [] (by simp)
          obtain ⟨f1, f2, f3⟩ := this
          refine ⟨by simp [relabel], ?_, f3⟩
          dsimp only [relabel] at f2 ⊢
          rw [if_neg (by simpa using hw)]
          exact f2
        obtain ⟨i2, k2⟩ := set_ok (b' := relabel { relabel b b.enc e with text := [] } b.enc e) i hget
          (by simpa using hs2) h1 rfl hg2
        exact ⟨.ok, _, p, _, rfl, i2, k.trans k2, by simp [St.set]; rfl, rfl, fun _ => rfl⟩
    · rw [if_neg ht]
      have hend : dangling b.enc e = false := by
        rcases hsafe with h | h | h
        · exact absurd h he
        · exact absurd h.1 ht
        · exact h.2
      exact (convert_ok C fail h hb ht e hend).imp fun hr x hx =>
        ⟨fun h => absurd h he, fun _ h => absurd h ht, fun _ _ => hx⟩

/-! ### `SetString` of String objects -/

theorem addRef_ok {s : St} {c : Nat → Nat} {q : Nat} (h : Inv s c) (hq : q < 6 ∨ 0 < c q) :
    ∃ s', addRef s q = some s' ∧ Inv s' (plus c q) ∧ ∀ a, bview s' a = bview s a := by
  by_cases h6 : q < 6
  · obtain ⟨e, rfl⟩ := lt_stat h6
    refine ⟨s, ?_, h.addStat e, fun _ => rfl⟩
    unfold addRef; rw [h.stat e]; rfl
  · obtain ⟨b, hb⟩ := h.get (p := q) (by omega) (by omega)
    obtain ⟨g1, g2, -, g3⟩ := h.live q b (by omega) hb
    refine ⟨s.set q (some { b with iRef := b.iRef + 1 }), ?_, ?_, ?_⟩
    · unfold addRef; rw [hb]; dsimp only; rw [if_neg (by rw [g1]; decide)]
    · constructor
      · intro e; dsimp only [St.set]; rw [if_neg (by have := stat_lt e; omega)]; exact h.stat e
      · exact h.next
      · intro a ha; dsimp only [St.set]; split
        · rename_i e; subst e; have := h.fresh a ha; rw [hb] at this; cases this
        · exact h.fresh a ha
      · intro a ha; dsimp only [St.set]; split
        · intro hh; cases hh
        · rename_i e; intro hn; unfold plus; rw [if_neg e]; exact h.dead a ha hn
      · intro a x ha; dsimp only [St.set]; split
        · rename_i e; subst e; intro hh; cases hh
          unfold plus; rw [if_pos rfl]; exact ⟨g1, by dsimp only; omega, by omega, g3⟩
        · rename_i e; intro hn; unfold plus; rw [if_neg e]; exact h.live a x ha hn
    · intro a; unfold bview; dsimp only [St.set]; split
      · rename_i e; subst e; rw [hb]; rfl
      · rfl

theorem assign_ok {s : St} {c : Nat → Nat} {p q : Nat} (h : Inv s (plus c p)) (hq : q < 6 ∨ 0 < c q) :
    ∃ s', assign s p q = .ret .ok s' q ∧ Inv s' (plus c q) ∧ Keep c s s' := by
  unfold assign
  by_cases hpq : p = q
  · subst hpq; rw [if_pos rfl]; exact ⟨s, rfl, h, Keep.refl _ _⟩
  · rw [if_neg hpq]
    obtain ⟨s1, e1, i1, k1⟩ := addRef_ok h (hq.imp id fun h => by unfold plus; split <;> omega)
    rw [plus_comm] at i1
    obtain ⟨s2, e2, i2, k2, -⟩ := release_ok i1
    rw [e1]; dsimp only; rw [e2]
    exact ⟨s2, rfl, i2, fun a ha => (k2.plus a ha).trans (k1 a)⟩

theorem setCopy_ok (fail : Nat → Bool) {s : St} {c : Nat → Nat} {p q : Nat} (h : Inv s (plus c p)) (hq : q < 6 ∨ 0 < c q) :
    ∃ s', setCopy fail s p q = .ret .ok s' q ∧ Inv s' (plus c q) ∧ Keep c s s' := by
  obtain ⟨b, hb, -⟩ := h.handle
  have hx : ∃ x, s.blk q = some x := by
    by_cases h6 : q < 6
    · obtain ⟨e, rfl⟩ := lt_stat h6; exact ⟨_, h.stat e⟩
    · exact h.get (p := q) (by omega) (by unfold plus; split <;> omega)
  obtain ⟨x, hx⟩ := hx
  have go : ∀ e, ∃ hr s1 p1, caue fail s p e = .ret hr s1 p1 ∧ Inv s1 (plus c p1) ∧ Keep c s s1 := by
    intro e
    by_cases he : b.enc = e
    · exact ⟨.ok, s, p, by unfold caue; rw [hb]; dsimp only; rw [if_pos he], h, Keep.refl _ _⟩
    · obtain ⟨hr, s1, p1, _, e1, i1, k1, -⟩ := caue_ok fail h hb e he
      exact ⟨hr, s1, p1, e1, i1, k1⟩
  have fin : ∀ e, ∃ s', (match caue fail s p e with | .ub => Res.ub | .ret _ s p => assign s p q) = .ret .ok s' q ∧ Inv s' (plus c q) ∧ Keep c s s' := by
    intro e
    obtain ⟨hr, s1, p1, e1, i1, k1⟩ := go e
    obtain ⟨s2, e2, i2, k2⟩ := assign_ok i1 hq
    rw [e1]; exact ⟨s2, e2, i2, k1.trans k2⟩
  unfold setCopy; rw [hb, hx]; dsimp only
  by_cases h1 : cls x.enc = .ansi 0
  · rw [if_pos h1]
    by_cases h2 : cls b.enc = .ansi 0
    · rw [if_pos h2]; exact assign_ok h hq
    · rw [if_neg h2]; exact fin _
  · rw [if_neg h1]; exact fin _

end Verif.NStr
