import Verif.NStr.Model

/-! Counting invariant of the NString memory and its preservation by the block operations. -/

namespace Verif.NStr

/-- recorded capacity (plus terminator) is exactly the storage, and the text fits -/
def Good (b : Blk) : Prop :=
  b.text.length ≤ b.cap ∧ (b.cap + 1) * width b.enc = b.bytes ∧ 16 ∣ b.bytes ∧ b.bytes < 2 ^ 63

/-- `s` is consistent when `cnt a` handles have block `a` -/
structure Inv (s : St) (cnt : Nat → Nat) : Prop where
  stat : ∀ e, s.blk (stat e) = some (emptyBlk e)
  next : 6 ≤ s.next
  fresh : ∀ a, s.next ≤ a → s.blk a = none
  dead : ∀ a, 6 ≤ a → s.blk a = none → cnt a = 0
  live : ∀ a b, 6 ≤ a → s.blk a = some b → b.ro = false ∧ b.iRef = cnt a ∧ 0 < cnt a ∧ Good b

/-- one more reference to `p` -/
def plus (cnt : Nat → Nat) (p : Nat) : Nat → Nat := fun a => if a = p then cnt a + 1 else cnt a

/-- encoding and text of a block -/
def bview (s : St) (a : Nat) : Option (Enc × List Nat) := (s.blk a).map fun b => (b.enc, b.text)

/-- the static blocks and the blocks that others have keep encoding and text -/
def Keep (cnt : Nat → Nat) (s s' : St) : Prop := ∀ a, a < 6 ∨ 0 < cnt a → bview s' a = bview s a

theorem Keep.refl (cnt s) : Keep cnt s s := fun _ _ => rfl
theorem Keep.trans {cnt s1 s2 s3} (h1 : Keep cnt s1 s2) (h2 : Keep cnt s2 s3) : Keep cnt s1 s3 :=
  fun a h => (h2 a h).trans (h1 a h)
theorem Keep.mono {c c' : Nat → Nat} {s1 s2} (h : ∀ a, 0 < c a → 0 < c' a) (k : Keep c' s1 s2) :
    Keep c s1 s2 := fun a ha => k a (ha.imp id (h a))
theorem Keep.plus {c : Nat → Nat} {p s1 s2} (k : Keep (plus c p) s1 s2) : Keep c s1 s2 :=
  k.mono fun a h => by unfold NStr.plus; split <;> omega

theorem stat_lt (e : Enc) : stat e < 6 := by cases e <;> simp [stat]

theorem stat_cls (e : Enc) : stat (cls e) = stat e := by cases e <;> rfl

theorem width_pos (e : Enc) : 0 < width e := by cases e <;> simp [width]
theorem width_dvd (e : Enc) : width e ∣ 16 := by cases e <;> simp [width] <;> decide
theorem width_cls (e : Enc) : width (cls e) = width e := by cases e <;> rfl
theorem cls_cls (e : Enc) : cls (cls e) = cls e := by cases e <;> rfl

theorem Inv.congr {s : St} {c c' : Nat → Nat} (h : Inv s c) (e : ∀ a, 6 ≤ a → c a = c' a) : Inv s c' where
  stat := h.stat
  next := h.next
  fresh := h.fresh
  dead a ha hn := by rw [← e a ha]; exact h.dead a ha hn
  live a b ha hb := by rw [← e a ha]; exact h.live a b ha hb

theorem Inv.addStat {s : St} {c : Nat → Nat} (h : Inv s c) (e : Enc) : Inv s (plus c (NStr.stat e)) :=
  h.congr fun a ha => by
    have := stat_lt e
    unfold plus; rw [if_neg (by omega)]

theorem Inv.delStat {s : St} {c : Nat → Nat} {e : Enc} (h : Inv s (plus c (NStr.stat e))) : Inv s c :=
  h.congr fun a ha => by
    have := stat_lt e
    unfold plus; rw [if_neg (by omega)]

theorem plus_comm (c : Nat → Nat) (p q : Nat) : plus (plus c p) q = plus (plus c q) p := by
  funext a; unfold plus; split <;> split <;> rfl

/-- a block with a reference exists -/
theorem Inv.get {s : St} {c : Nat → Nat} (h : Inv s c) {p : Nat} (hp : 6 ≤ p) (hc : 0 < c p) :
    ∃ b, s.blk p = some b := by
  cases e : s.blk p with
  | none => have := h.dead p hp e; omega
  | some b => exact ⟨b, rfl⟩

/-- a static block is one of the six -/
theorem lt_stat {p : Nat} (h : p < 6) : ∃ e, p = stat e := by
  match p, h with
  | 0, _ => exact ⟨.ansi 0, rfl⟩
  | 1, _ => exact ⟨.u8, rfl⟩
  | 2, _ => exact ⟨.u16le, rfl⟩
  | 3, _ => exact ⟨.u16be, rfl⟩
  | 4, _ => exact ⟨.u32le, rfl⟩
  | 5, _ => exact ⟨.u32be, rfl⟩

theorem Inv.handle {s : St} {c : Nat → Nat} {p : Nat} (h : Inv s (plus c p)) :
    ∃ b, s.blk p = some b ∧ (p < 6 → b.ro = true ∧ b.text = []) ∧
      (6 ≤ p → b.ro = false ∧ b.iRef = c p + 1 ∧ Good b) := by
  by_cases hp : p < 6
  · obtain ⟨e, rfl⟩ := lt_stat hp
    exact ⟨_, h.stat e, fun _ => ⟨rfl, rfl⟩, fun h => by omega⟩
  · obtain ⟨b, hb⟩ := h.get (p := p) (by omega) (by unfold plus; rw [if_pos rfl]; omega)
    obtain ⟨h1, h2, h3, h4⟩ := h.live p b (by omega) hb
    refine ⟨b, hb, fun h => by omega, fun _ => ⟨h1, ?_, h4⟩⟩
    rw [h2]; unfold plus; rw [if_pos rfl]

/-- an exclusively owned block is not static and nobody else has it -/
theorem Inv.excl {s : St} {c : Nat → Nat} {p : Nat} {b : Blk} (h : Inv s (plus c p))
    (hb : s.blk p = some b) (hs : b.shared = false) : 6 ≤ p ∧ c p = 0 ∧ b.ro = false ∧ b.iRef = 1 ∧ Good b := by
  obtain ⟨b', hb', h1, h2⟩ := h.handle
  rw [hb] at hb'; cases hb'
  unfold Blk.shared at hs
  simp only [Bool.or_eq_false_iff, decide_eq_false_iff_not] at hs
  have hp : 6 ≤ p := by
    refine Classical.byContradiction fun h => ?_
    have := (h1 (by omega)).1
    rw [this] at hs; exact absurd hs.1 (by decide)
  obtain ⟨h3, h4, h5⟩ := h2 hp
  exact ⟨hp, by omega, h3, by omega, h5⟩

theorem release_ok {s : St} {c : Nat → Nat} {p : Nat} (h : Inv s (plus c p)) :
    ∃ s', release s p = some s' ∧ Inv s' c ∧ Keep c s s' ∧ s'.next = s.next := by
  obtain ⟨b, hb, h1, h2⟩ := h.handle
  unfold release; rw [hb]; dsimp only
  by_cases hp : p < 6
  · obtain ⟨e, rfl⟩ := lt_stat hp
    rw [if_pos (h1 hp).1]
    exact ⟨s, rfl, h.delStat, Keep.refl _ _, rfl⟩
  · obtain ⟨h3, h4, h5⟩ := h2 (by omega)
    rw [if_neg (by rw [h3]; decide)]
    have hst : ∀ e, stat e ≠ p := fun e he => by have := stat_lt e; omega
    by_cases h0 : b.iRef - 1 = 0
    · rw [if_pos h0]
      refine ⟨_, rfl, ?_, ?_, rfl⟩
      · constructor
        · intro e; dsimp only [St.set]; rw [if_neg (hst e)]; exact h.stat e
        · exact h.next
        · intro a ha; dsimp only [St.set]; split
          · rfl
          · exact h.fresh a ha
        · intro a ha; dsimp only [St.set]; split
          · rename_i e; subst e; intro _; omega
          · rename_i e; intro hn
            have := h.dead a ha hn; unfold plus at this; rw [if_neg e] at this; exact this
        · intro a b' ha; dsimp only [St.set]; split
          · intro h; cases h
          · rename_i e; intro hn
            have := h.live a b' ha hn; unfold plus at this; rw [if_neg e] at this; exact this
      · intro a ha
        have : a ≠ p := by rintro rfl; omega
        unfold bview; dsimp only [St.set]; rw [if_neg this]
    · rw [if_neg h0]
      refine ⟨_, rfl, ?_, ?_, rfl⟩
      · constructor
        · intro e; dsimp only [St.set]; rw [if_neg (hst e)]; exact h.stat e
        · exact h.next
        · intro a ha; dsimp only [St.set]; split
          · rename_i e; subst e
            have := h.fresh a ha; rw [hb] at this; cases this
          · exact h.fresh a ha
        · intro a ha; dsimp only [St.set]; split
          · intro h; cases h
          · rename_i e; intro hn
            have := h.dead a ha hn; unfold plus at this; rw [if_neg e] at this; exact this
        · intro a b' ha; dsimp only [St.set]; split
          · rename_i e; subst e; intro h; cases h
            exact ⟨h3, by dsimp only; omega, by omega, h5⟩
          · rename_i e; intro hn
            have := h.live a b' ha hn; unfold plus at this; rw [if_neg e] at this; exact this
      · intro a ha
        unfold bview; dsimp only [St.set]; split
        · rename_i e; subst e; rw [hb]; rfl
        · rfl

theorem round16_good (n : Nat) (e : Enc) : 16 ∣ round16 n * width e := by
  unfold round16
  exact Nat.dvd_trans (Nat.dvd_mul_left _ _) (Nat.dvd_mul_right _ _)

theorem round16_ge (n : Nat) : n ≤ round16 n := by unfold round16; omega

/-- a new block at `s.next` -/
theorem new_ok {s : St} {c : Nat → Nat} {b : Blk} (h : Inv s c) (hr : b.ro = false) (hi : b.iRef = 1)
    (hg : Good b) :
    Inv ⟨fun x => if x = s.next then some b else s.blk x, s.next + 1⟩ (plus c s.next) ∧
    Keep c s ⟨fun x => if x = s.next then some b else s.blk x, s.next + 1⟩ ∧ c s.next = 0 := by
  have hc : c s.next = 0 := h.dead _ h.next (h.fresh _ (Nat.le_refl _))
  refine ⟨?_, ?_, hc⟩
  · constructor
    · intro e; dsimp only
      rw [if_neg (by have := stat_lt e; have := h.next; omega)]; exact h.stat e
    · have := h.next; dsimp only; omega
    · intro a ha; dsimp only at ha ⊢; rw [if_neg (by omega)]; exact h.fresh a (by omega)
    · intro a ha; dsimp only; split
      · intro h; cases h
      · rename_i e; intro hn; unfold plus; rw [if_neg e]; exact h.dead a ha hn
    · intro a b' ha; dsimp only; split
      · rename_i e; subst e; intro h; cases h
        unfold plus; rw [if_pos rfl, hc]; exact ⟨hr, hi, by omega, hg⟩
      · rename_i e; intro hn; unfold plus; rw [if_neg e]; exact h.live a b' ha hn
  · intro a ha
    unfold bview; dsimp only
    rw [if_neg (by rintro rfl; have := h.next; omega)]

/-- bumping the allocation counter changes nothing -/
theorem bump_ok {s : St} {c : Nat → Nat} (h : Inv s c) :
    Inv { s with next := s.next + 1 } c ∧ Keep c s { s with next := s.next + 1 } := by
  refine ⟨⟨h.stat, ?_, ?_, h.dead, h.live⟩, fun _ _ => rfl⟩
  · have := h.next; dsimp only; omega
  · intro a ha; dsimp only at ha; exact h.fresh a (by omega)

/-- an exclusively owned block is replaced in place -/
theorem set_ok {s : St} {c : Nat → Nat} {p : Nat} {b b' : Blk} (h : Inv s (plus c p))
    (hb : s.blk p = some b) (hs : b.shared = false) (hr : b'.ro = false) (hi : b'.iRef = b.iRef)
    (hg : Good b') : Inv (s.set p (some b')) (plus c p) ∧ Keep c s (s.set p (some b')) := by
  obtain ⟨hp, hc, h1, h2, h3⟩ := h.excl hb hs
  constructor
  · constructor
    · intro e; dsimp only [St.set]; rw [if_neg (by have := stat_lt e; omega)]; exact h.stat e
    · exact h.next
    · intro a ha; dsimp only [St.set]; split
      · rename_i e; subst e; have := h.fresh a ha; rw [hb] at this; cases this
      · exact h.fresh a ha
    · intro a ha; dsimp only [St.set]; split
      · intro h; cases h
      · intro hn; exact h.dead a ha hn
    · intro a x ha; dsimp only [St.set]; split
      · rename_i e; subst e; intro h; cases h
        unfold plus; rw [if_pos rfl]; exact ⟨hr, by omega, by omega, hg⟩
      · intro hn; exact h.live a x ha hn
  · intro a ha
    unfold bview; dsimp only [St.set]; rw [if_neg (by rintro rfl; omega)]

/-- an exclusively owned block moves to `s.next` -/
theorem move_ok {s : St} {c : Nat → Nat} {p : Nat} {b b' : Blk} (h : Inv s (plus c p))
    (hb : s.blk p = some b) (hs : b.shared = false) (hr : b'.ro = false) (hi : b'.iRef = b.iRef)
    (hg : Good b') :
    Inv ⟨fun x => if x = s.next then some b' else if x = p then none else s.blk x, s.next + 1⟩
      (plus c s.next) ∧
    Keep c s ⟨fun x => if x = s.next then some b' else if x = p then none else s.blk x, s.next + 1⟩ := by
  obtain ⟨hp, hc, h1, h2, h3⟩ := h.excl hb hs
  have hrel : release s p = some (s.set p none) := by
    unfold release; rw [hb]; dsimp only
    rw [if_neg (by rw [h1]; decide), if_pos (by omega)]
  obtain ⟨s', e, i, k, en⟩ := release_ok h
  rw [hrel] at e; cases e
  obtain ⟨i2, k2, -⟩ := new_ok (b := b') i hr (by omega) hg
  exact ⟨i2, k.trans k2⟩

theorem alloc_ok (fail : Nat → Bool) {s : St} {c : Nat → Nat} (h : Inv s c) (e : Enc) (n : Nat) :
    (∃ s', alloc fail s e n = (s', none) ∧ Inv s' c ∧ Keep c s s') ∨
    (∃ s', alloc fail s e n = (s', some s.next) ∧ Inv s' (plus c s.next) ∧ Keep c s s' ∧ c s.next = 0 ∧
      s'.blk s.next = some ⟨false, 1, round16 (n + 1) - 1, cls e, round16 (n + 1) * width e, []⟩ ∧
      Good ⟨false, 1, round16 (n + 1) - 1, cls e, round16 (n + 1) * width e, []⟩) := by
  unfold alloc
  by_cases ho : oom fail s (round16 (n + 1) * width e) = true
  · rw [if_pos ho]; exact .inl ⟨_, rfl, (bump_ok h).1, (bump_ok h).2⟩
  · rw [if_neg ho]
    have hg : Good ⟨false, 1, round16 (n + 1) - 1, cls e, round16 (n + 1) * width e, []⟩ := by
      refine ⟨by simp, ?_, round16_good _ _, ?_⟩
      · dsimp only
        rw [width_cls, Nat.sub_add_cancel (by have := round16_ge (n + 1); omega)]
      · unfold oom at ho
        simp only [Bool.or_eq_true, decide_eq_true_eq, not_or] at ho
        dsimp only; omega
    obtain ⟨i, k, hc⟩ := new_ok (b := ⟨false, 1, round16 (n + 1) - 1, cls e, round16 (n + 1) * width e, []⟩)
      h rfl rfl hg
    exact .inr ⟨_, rfl, i, k, hc, by simp, hg⟩

end Verif.NStr
