import Verif.NStr.Lemmas

/-! What each NString operation does to the handle and to the other handles. -/

namespace Verif.NStr

/-- the operation of a handle returned: memory consistent, others unchanged, `Q` of the result code and
the block of the handle -/
def Post (c : Nat → Nat) (s : St) (r : Res) (Q : Hr → Blk → Prop) : Prop :=
  ∃ hr s' q b, r = .ret hr s' q ∧ Inv s' (plus c q) ∧ Keep c s s' ∧ s'.blk q = some b ∧ Q hr b

theorem Post.imp {c : Nat → Nat} {s : St} {r : Res} {Q Q' : Hr → Blk → Prop}
    (h : Post c s r Q) (hq : ∀ hr b, Q hr b → Q' hr b) : Post c s r Q' := by
  obtain ⟨hr, s', q, b, h1, h2, h3, h4, h5⟩ := h
  exact ⟨hr, s', q, b, h1, h2, h3, h4, hq _ _ h5⟩

theorem Post.keep {c : Nat → Nat} {s0 s : St} {r : Res} {Q : Hr → Blk → Prop}
    (k : Keep c s0 s) (h : Post c s r Q) : Post c s0 r Q := by
  obtain ⟨hr, s', q, b, h1, h2, h3, h4, h5⟩ := h
  exact ⟨hr, s', q, b, h1, h2, k.trans h3, h4, h5⟩

theorem Post.of_stat {c : Nat → Nat} {s : St} {e : Enc} {r : Res} {Q : Hr → Blk → Prop}
    (h : Post (plus c (stat e)) s r Q) : Post c s r Q := by
  obtain ⟨hr, s', q, b, h1, h2, h3, h4, h5⟩ := h
  rw [plus_comm] at h2
  exact ⟨hr, s', q, b, h1, h2.delStat, h3.plus, h4, h5⟩

theorem bview_some {s : St} {a : Nat} {b : Blk} (h : s.blk a = some b) : bview s a = some (b.enc, b.text) := by
  unfold bview; rw [h]; rfl

theorem bview_get {s : St} {a : Nat} {e : Enc} {t : List Nat} (h : bview s a = some (e, t)) :
    ∃ b, s.blk a = some b ∧ b.enc = e ∧ b.text = t := by
  unfold bview at h
  cases hb : s.blk a with
  | none => rw [hb] at h; cases h
  | some b => rw [hb] at h; simp at h; exact ⟨b, rfl, h.1, h.2⟩

theorem plus_self (c : Nat → Nat) (p : Nat) : 0 < plus c p p := by unfold plus; rw [if_pos rfl]; omega

theorem detachRelease_ok {s : St} {c : Nat → Nat} {p : Nat} (h : Inv s (plus c p)) (e : Enc) :
    Post c s (detachRelease s p e) (fun hr x => hr = .ok ∧ x.enc = cls e ∧ x.text = [] ∧ x.shared = true) := by
  obtain ⟨s', e1, i, k, -⟩ := release_ok h
  unfold detachRelease; rw [e1]
  exact ⟨.ok, s', stat e, emptyBlk e, rfl, i.addStat e, k, i.stat e, rfl, rfl, rfl, rfl⟩

theorem clearC_ok {s : St} {c : Nat → Nat} {p : Nat} {b : Blk} (h : Inv s (plus c p))
    (hb : s.blk p = some b) (e : Enc) :
    Post c s (clearC s p e)
      (fun hr x => hr = .ok ∧ x.enc = (if b.shared then cls e else b.enc) ∧ x.text = [] ∧ x.shared = b.shared) := by
  unfold clearC; rw [hb]; dsimp only
  by_cases hs : b.shared = true
  · rw [if_pos hs, if_pos hs]
    exact (detachRelease_ok h e).imp fun hr x hx => ⟨hx.1, hx.2.1, hx.2.2.1, hx.2.2.2.trans hs.symm⟩
  · rw [if_neg hs, if_neg hs]
    have hs' : b.shared = false := by simpa using hs
    obtain ⟨hp, hc, h1, h2, h3, h4, h5⟩ := h.excl hb hs'
    obtain ⟨i, k⟩ := set_ok (b' := { b with text := [] }) h hb hs' h1 rfl ⟨by simp, h4, h5⟩
    exact ⟨.ok, _, p, { b with text := [] }, rfl, i, k, by simp [St.set], rfl, rfl, rfl, rfl⟩

/-- `fill` of an empty or shared-empty handle -/
theorem fill_ok (fail : Nat → Bool) {s : St} {c : Nat → Nat} {p : Nat} {b : Blk} (h : Inv s (plus c p))
    (hb : s.blk p = some b) (e : Enc) {n : Nat} {t : List Nat} (hn : 0 < n) (ht : t.length ≤ n)
    (hw : b.shared = false → width b.enc = width e) :
    Post c s (fill fail s p e n t)
      (fun hr x => (hr = .ok ∧ x.enc = (if b.shared then cls e else b.enc) ∧ x.text = t ∧ x.shared = false) ∨
        (hr = .oom ∧ x.enc = b.enc ∧ x.text = b.text)) := by
  unfold fill; rw [hb]; dsimp only
  rw [if_neg (by omega)]
  by_cases hs : b.shared = true
  · rw [if_pos hs, if_neg (by omega), if_pos hs]
    rcases alloc_ok fail h e n with ⟨s1, e1, i1, k1⟩ | ⟨s1, e1, i1, k1, hc, hq, hg⟩
    · rw [e1]; dsimp only
      obtain ⟨b', hb', he, htx⟩ := bview_get (by rw [k1 p (.inr (plus_self c p))]; exact bview_some hb)
      exact ⟨.oom, s1, p, b', rfl, i1, k1.plus, hb', .inr ⟨rfl, he, htx⟩⟩
    · rw [e1]; dsimp only
      rw [plus_comm] at i1
      obtain ⟨s2, e2, i2, k2, -⟩ := release_ok i1
      rw [e2]; dsimp only
      obtain ⟨d, hd, hde, hdt⟩ := bview_get (by
        rw [k2 s.next (.inr (plus_self c _))]; exact bview_some hq)
      obtain ⟨h1, h2, h3, h4⟩ := i2.live _ d h.next hd
      have hc0 : c s.next = 0 := by
        unfold plus at hc; split at hc <;> omega
      have hsh : d.shared = false := by
        unfold Blk.shared; rw [h1, h2]; unfold plus; rw [if_pos rfl, hc0]; rfl
      -- the released block is another one, so the new block is untouched
      have hd' : d = ⟨false, 1, round16 (n + 1) - 1, cls e, round16 (n + 1) * width e, []⟩ := by
        have hne : s.next ≠ p := by
          intro hh; rw [← hh, h.fresh _ (Nat.le_refl _)] at hb; cases hb
        have : s2.blk s.next = s1.blk s.next := by
          unfold release at e2
          split at e2
          · cases e2
          · split at e2
            · cases e2; rfl
            · split at e2
              · cases e2; simp [St.set, hne]
              · cases e2; simp [St.set, hne]
        rw [this, hq] at hd; cases hd; rfl
      rw [hd]; dsimp only
      have hlen : t.length + 1 ≤ round16 (n + 1) := by have := round16_ge (n + 1); omega
      rw [if_neg (by
        rw [hd']; dsimp only
        exact Nat.not_lt.mpr (Nat.mul_le_mul_right _ hlen))]
      obtain ⟨i3, k3⟩ := set_ok (b' := { d with text := t }) i2 hd hsh h1 rfl
        ⟨by dsimp only; rw [hd']; dsimp only; omega, h4.2⟩
      refine ⟨.ok, _, s.next, { d with text := t }, rfl, i3, (k1.plus.trans k2.plus).trans k3, ?_, ?_⟩
      · simp [St.set]
      · exact .inl ⟨rfl, hde, rfl, hsh⟩
  · rw [if_neg hs]
    have hs' : b.shared = false := by simpa using hs
    obtain ⟨hp, hc, h1, h2, h3, h4, h5, h6⟩ := h.excl hb hs'
    have hw := hw hs'
    rw [if_neg hs]
    by_cases hcap : b.cap < n
    · rw [if_pos hcap]
      generalize hwant : (if b.cap + b.cap / 2 < n + 1 then n + 1 else b.cap + b.cap / 2) = want
      have hwn : n + 1 ≤ want := by rw [← hwant]; split <;> omega
      by_cases ho : oom fail s (round16 want * width e) = true
      · rw [if_pos ho]
        exact ⟨.oom, _, p, b, rfl, (bump_ok h).1, (bump_ok h).2.plus, hb, .inr ⟨rfl, rfl, rfl⟩⟩
      · rw [if_neg ho]
        have hlen : t.length + 1 ≤ round16 want := by have := round16_ge want; omega
        rw [if_neg (Nat.not_lt.mpr (Nat.mul_le_mul_right _ hlen))]
        obtain ⟨i, k⟩ := move_ok (b' := { b with
            cap := round16 want - 1, bytes := round16 want * width e, text := t }) h hb hs' h1 rfl
          ⟨by dsimp only; omega, by dsimp only; rw [hw, Nat.sub_add_cancel (by omega)],
            round16_good _ _, by
              unfold oom at ho
              simp only [Bool.or_eq_true, decide_eq_true_eq, not_or] at ho
              dsimp only; omega⟩
        exact ⟨.ok, _, s.next, { b with
          cap := round16 want - 1, bytes := round16 want * width e, text := t }, rfl, i, k, by simp,
          .inl ⟨rfl, rfl, rfl, hs'⟩⟩
    · rw [if_neg hcap]
      rw [if_neg (by
        rw [← h4, hw]
        exact Nat.not_lt.mpr (Nat.mul_le_mul_right _ (by omega)))]
      obtain ⟨i, k⟩ := set_ok (b' := { b with text := t }) h hb hs' h1 rfl
        ⟨by dsimp only; omega, h4, h5, h6⟩
      exact ⟨.ok, _, p, { b with text := t }, rfl, i, k, by simp [St.set], .inl ⟨rfl, rfl, rfl, hs'⟩⟩

/-- `setANSI` of an ANSI handle that is exclusively owned or empty -/
theorem setANSI_ok (fail : Nat → Bool) {s : St} {c : Nat → Nat} {p : Nat} {b : Blk} (h : Inv s (plus c p))
    (hb : s.blk p = some b) (cp : Nat) (hw : width b.enc = 1) :
    Post c s (setANSI fail s p (.ansi cp))
      (fun hr x => (hr = .ok ∧ x.enc = .ansi cp ∧
          x.text = (if b.shared = true ∧ b.enc ≠ .ansi cp then [] else b.text) ∧
          (b.shared = false → x.shared = false)) ∨
        (hr = .oom ∧ b.shared = true ∧ x.enc = b.enc ∧ x.text = b.text)) := by
  unfold setANSI; rw [hb]; dsimp only
  by_cases he : b.enc = .ansi cp
  · rw [if_pos he]
    exact ⟨.ok, s, p, b, rfl, h, Keep.refl _ _, hb, .inl ⟨rfl, he, by rw [if_neg (by simp [he])], fun h => h⟩⟩
  · rw [if_neg he, if_pos ⟨by simp, rfl⟩]
    by_cases hs : b.shared = true
    · rw [if_pos hs, if_pos ⟨hs, he⟩]
      rcases alloc_ok fail h (.ansi 0) (max 1 b.text.length) with ⟨s1, e1, i1, k1⟩ | ⟨s1, e1, i1, k1, hc, hq, hg⟩
      · rw [e1]; dsimp only
        obtain ⟨b', hb', he, htx⟩ := bview_get (by rw [k1 p (.inr (plus_self c p))]; exact bview_some hb)
        exact ⟨.oom, s1, p, b', rfl, i1, k1.plus, hb', .inr ⟨rfl, hs, he, htx⟩⟩
      · rw [e1]; dsimp only
        rw [plus_comm] at i1
        obtain ⟨s2, e2, i2, k2, -⟩ := release_ok i1
        rw [e2]; dsimp only
        obtain ⟨d, hd, hde, hdt⟩ := bview_get (by
          rw [k2 s.next (.inr (plus_self c _))]; exact bview_some hq)
        obtain ⟨h1, h2, h3, h4⟩ := i2.live _ d h.next hd
        have hc0 : c s.next = 0 := by
          unfold plus at hc; split at hc <;> omega
        have hsh : d.shared = false := by
          unfold Blk.shared; rw [h1, h2]; unfold plus; rw [if_pos rfl, hc0]; rfl
        rw [hd]; dsimp only
        obtain ⟨i3, k3⟩ := set_ok (b' := { d with enc := .ansi cp }) i2 hd hsh h1 rfl
          ⟨h4.1, by have := h4.2.1; rw [hde] at this; exact this, h4.2.2⟩
        refine ⟨.ok, _, s.next, { d with enc := .ansi cp }, rfl, i3, (k1.plus.trans k2.plus).trans k3, ?_, ?_⟩
        · simp [St.set]
        · exact .inl ⟨rfl, rfl, hdt, fun _ => hsh⟩
    · rw [if_neg hs, if_neg (c := b.shared = true ∧ b.enc ≠ .ansi cp) (by simp [hs])]
      have hs' : b.shared = false := by simpa using hs
      obtain ⟨hp, hc, h1, h2, h3, h4, h5, h6⟩ := h.excl hb hs'
      rw [hw] at h4
      by_cases hcap : b.cap < 1
      · rw [if_pos hcap]
        obtain ⟨x, hx⟩ := h5
        omega
      · rw [if_neg hcap]
        obtain ⟨i, k⟩ := set_ok (b' := { b with enc := .ansi cp }) h hb hs' h1 rfl
          ⟨h3, h4, h5, h6⟩
        exact ⟨.ok, _, p, { b with enc := .ansi cp }, rfl, i, k, by simp [St.set], .inl ⟨rfl, rfl, rfl, fun h => h⟩⟩

theorem rescale_good {cap o n B : Nat} (h : (cap + 1) * o = B) (ho : 0 < o) (hn : n ∣ 16) (hd : 16 ∣ B)
    (hB : B < 2 ^ 63) : (rescale cap o n + 1) * n = B := by
  have hn0 : 0 < n := Nat.pos_of_dvd_of_pos hn (by decide)
  have h1 : cap + 1 ≤ B := by rw [← h]; exact Nat.le_mul_of_pos_right _ ho
  obtain ⟨k, hk⟩ := Nat.dvd_trans hn hd
  have hk0 : 0 < k := by
    rcases Nat.eq_zero_or_pos k with h0 | h0
    · rw [h0] at hk; omega
    · exact h0
  have hkB : k ≤ B := by rw [hk]; exact Nat.le_mul_of_pos_left _ hn0
  have e1 : (cap + 1) % 2 ^ 64 = cap + 1 := Nat.mod_eq_of_lt (by omega)
  have e2 : B % 2 ^ 64 = B := Nat.mod_eq_of_lt (by omega)
  have e3 : B / n = k := by rw [hk]; exact Nat.mul_div_cancel_left _ hn0
  unfold rescale
  rw [e1, h, e2, e3]
  have e4 : (k + (2 ^ 64 - 1)) % 2 ^ 64 = k - 1 := by
    rw [show k + (2 ^ 64 - 1) = (k - 1) + 2 ^ 64 by omega, Nat.add_mod_right]
    exact Nat.mod_eq_of_lt (by omega)
  rw [e4, Nat.sub_add_cancel hk0, hk, Nat.mul_comm]

theorem relabel_good {b : Blk} (h : Good b) (e : Enc) (t : List Nat) (ht : t.length ≤ (relabel b b.enc e).cap) :
    Good { relabel b b.enc e with text := t } := by
  obtain ⟨h1, h2, h3, h4⟩ := h
  refine ⟨ht, ?_, h3, h4⟩
  dsimp only [relabel]
  by_cases hw : width b.enc ≠ width e
  · rw [if_pos hw]; exact rescale_good h2 (width_pos _) (width_dvd _) h3 h4
  · rw [if_neg hw]
    rw [← h2]; congr 1; omega

/-- `ClearAndUpdateEncoding` -/
theorem caue_ok (fail : Nat → Bool) {s : St} {c : Nat → Nat} {p : Nat} {b : Blk} (h : Inv s (plus c p))
    (hb : s.blk p = some b) (e : Enc) (he : b.enc ≠ e) :
    Post c s (caue fail s p e) (fun hr x => x.text = [] ∧
      ((hr = .ok ∧ (x.enc = e ∨ (e = .u32be ∧ x.shared = true ∧ b.shared = true))) ∨
        (hr = .oom ∧ cls e = .ansi 0 ∧ x.enc = .ansi 0))) := by
  unfold caue; rw [hb]; dsimp only
  rw [if_neg he]
  by_cases hs : b.shared = true
  · rw [if_pos hs]
    cases e with
    | u32be =>
      exact (detachRelease_ok h _).imp fun hr x hx => ⟨hx.2.2.1, .inl ⟨hx.1, .inr ⟨rfl, hx.2.2.2, hs⟩⟩⟩
    | ansi cp =>
      obtain ⟨hr, s', q, x, e1, i, k, hx, h1, h2, h3, h4⟩ := detachRelease_ok h (.ansi 0)
      dsimp only
      rw [e1]; dsimp only
      refine ((setANSI_ok fail i hx cp (by rw [h2]; rfl)).keep k).imp fun hr y hy => ?_
      rcases hy with ⟨g1, g2, g3, -⟩ | ⟨g1, g2, g3, g4⟩
      · exact ⟨by rw [g3]; split <;> simp [h3], .inl ⟨g1, .inl g2⟩⟩
      · exact ⟨by rw [g4, h3], .inr ⟨g1, rfl, by rw [g3, h2]; rfl⟩⟩
    | u8 => exact (detachRelease_ok h _).imp fun hr x hx => ⟨hx.2.2.1, .inl ⟨hx.1, .inl hx.2.1⟩⟩
    | u16le => exact (detachRelease_ok h _).imp fun hr x hx => ⟨hx.2.2.1, .inl ⟨hx.1, .inl hx.2.1⟩⟩
    | u16be => exact (detachRelease_ok h _).imp fun hr x hx => ⟨hx.2.2.1, .inl ⟨hx.1, .inl hx.2.1⟩⟩
    | u32le => exact (detachRelease_ok h _).imp fun hr x hx => ⟨hx.2.2.1, .inl ⟨hx.1, .inl hx.2.1⟩⟩
  · rw [if_neg hs]
    have hs' : b.shared = false := by simpa using hs
    obtain ⟨hp, hc, h1, h2, h3⟩ := h.excl hb hs'
    have hlt : ¬ b.bytes < width e := by
      obtain ⟨_, g1, g2, -⟩ := h3
      have := Nat.mul_pos (Nat.succ_pos b.cap) (width_pos b.enc)
      have : 16 ≤ b.bytes := Nat.le_of_dvd (by rw [← g1]; exact this) g2
      have := Nat.le_of_dvd (by decide) (width_dvd e)
      omega
    rw [if_neg hlt]
    obtain ⟨i, k⟩ := set_ok (b' := { relabel b b.enc e with text := [] }) h hb hs' h1 rfl
      (relabel_good h3 e [] (by simp))
    exact ⟨.ok, _, p, { relabel b b.enc e with text := [] }, rfl, i, k, by simp [St.set], rfl,
      .inl ⟨rfl, .inl rfl⟩⟩

end Verif.NStr
