import Verif.StrHeap.Props

/-! C16 (self append, self assign), C08 (TransformEndian by move), and concrete histories: the defects of
`CloneStringData` and examples that meet the hypotheses of the theorems. -/

namespace Verif.StrHeap

/-! ### C16 -/

/-- appending (part of) a string to itself -/
theorem own_append {cls s i d off n al} (inv : Inv cls s) (hf : Few s) (hd : blk s i = some d)
    (ha : AlOk s i al) (hr : off + n ≤ d.size) (hroom : SharedWith s i ∨ d.size + n ≤ d.cap) :
    WPost cls s i (onHandle s i (fun m p => append cls m p (.inn p off n) al))
      (fun hr d' => (hr = .ok ∧ d'.text = d.text ++ (d.text.drop off).take n) ∨ (hr = .oom ∧ al = none ∧ d'.text = d.text))
      (fun _ => False) := by
  obtain ⟨p, hp⟩ := live_of_blk hd
  obtain ⟨p', d', hp', hm, hb, w⟩ := handle_facts inv ⟨p, hp⟩
  rw [hp] at hp'; cases hp'
  rw [hd] at hb; cases hb
  refine WPost.mono (onHandle_ok (f := fun m p => append cls m p (.inn p off n) al) hp
    (append_own_ok w (few_bd0 hf i) hm (fresh_of hp hm w ha) hr ?_)) ?_ (fun _ h => h)
  · intro hns
    rcases hroom with h | h
    · exact absurd (shared_of hp hm w h) hns
    · exact h
  · rintro hr d' ⟨_, ⟨h1, h2⟩ | ⟨h1, h2, h3⟩⟩
    · exact .inl ⟨h1, h2⟩
    · exact .inr ⟨h1, h2, by rw [h3]⟩

/-- **C16, append (partial).**  Appending any part of a string to itself appends exactly that part, provided
another handle shares the storage or the capacity already suffices.  When the storage is not shared and has
to grow, the source range is freed by `realloc` before it is copied: `C16_append_fails`. -/
theorem C16_append_partial {cls ops s i d off n al} (r : Run cls (init cls) ops s) (hf : Few s) (hd : blk s i = some d)
    (ha : AlOk s i al) (hr : off + n ≤ d.text.length) (hroom : SharedWith s i ∨ d.text.length + n ≤ d.cap) :
    ∃ hr s' d', step cls s (.append i (.of i off n) al) = .ret hr s' ∧ blk s' i = some d' ∧
      ((hr = .ok ∧ d'.text = d.text ++ (d.text.drop off).take n) ∨ (hr = .oom ∧ al = none ∧ d'.text = d.text)) ∧
      (∀ k, k ≠ i → (blk s' k).map look = (blk s k).map look) := by
  rw [text_length] at hr hroom
  obtain ⟨p, hp⟩ := live_of_blk hd
  have A := own_append (run_inv r (inv_init cls)) hf hd ha hr hroom
  have e : step cls s (.append i (.of i off n) al) = onHandle s i (fun m p => append cls m p (.inn p off n) al) := by
    simp only [step, onHandleP, ptrOf, hp, onHandle]
  rw [e]
  unfold WPost at A
  split at A
  · exact A.elim
  · obtain ⟨_, _, _, _, h⟩ := A; exact h.elim
  · rename_i hr s' e'
    obtain ⟨_, o, d', g, h⟩ := A
    exact ⟨hr, s', d', e', g, h, fun k hk => (o.2 k hk).2⟩

/-- **C16, `s += s` (partial).**  Doubles the text when the storage is shared or has room. -/
theorem C16_double_partial {cls ops s i d al} (r : Run cls (init cls) ops s) (hf : Few s) (hd : blk s i = some d)
    (ha : AlOk s i al) (hroom : SharedWith s i ∨ d.text.length + d.text.length ≤ d.cap) :
    ∃ hr s' d', step cls s (.appendS i i al) = .ret hr s' ∧ blk s' i = some d' ∧
      ((hr = .ok ∧ d'.text = d.text ++ d.text) ∨ (hr = .oom ∧ al = none ∧ d'.text = d.text)) ∧
      (∀ k, k ≠ i → (blk s' k).map look = (blk s k).map look) := by
  obtain ⟨p, hp⟩ := live_of_blk hd
  have hm : s.mem p = some d := by rw [blk_eq hp] at hd; exact hd
  by_cases hz : d.size = 0
  · have e : step cls s (.appendS i i al) = .ret .ok ⟨s.mem, s.hs.set i (some p)⟩ := by
      simp only [step, onHandle2, hp, onHandle, appendS, hm, hz, if_pos]
    have hs : s.hs.set i (some p) = s.hs := by
      apply List.ext_getElem?; intro k
      by_cases hk : k = i
      · subst hk; rw [List.getElem?_set_self (lt_of_get hp), hp]
      · rw [List.getElem?_set_ne (Ne.symm hk)]
    rw [e, hs]
    exact ⟨_, _, d, rfl, hd, .inl ⟨rfl, by rw [text_empty.2 hz]; rfl⟩, fun _ _ => rfl⟩
  · rw [text_length] at hroom
    have A := own_append (off := 0) (n := d.size) (run_inv r (inv_init cls)) hf hd ha (by omega) hroom
    have e : step cls s (.appendS i i al) = onHandle s i (fun m p => append cls m p (.inn p 0 d.size) al) := by
      simp only [step, onHandle2, hp, onHandle, appendS, hm, hz, if_false]
    have ht : (d.text.drop 0).take d.size = d.text := by
      rw [List.drop_zero, List.take_of_length_le (by rw [text_length]; omega)]
    rw [ht] at A
    rw [e]
    unfold WPost at A
    split at A
    · exact A.elim
    · obtain ⟨_, _, _, _, h⟩ := A; exact h.elim
    · rename_i hr s' e'
      obtain ⟨_, o, d', g, h⟩ := A
      exact ⟨hr, s', d', e', g, h, fun k hk => (o.2 k hk).2⟩

/-- **C16, assign (partial).**  Assigning part of a string to itself gives that part when another handle
shares the storage, or when the part does not reach back over its own length (`n ≤ off`).  Otherwise
`Clear` has already overwritten the first character and `memcpy` copies onto itself: `C16_assign_fails`. -/
theorem C16_assign_partial {cls ops s i d off n al} (r : Run cls (init cls) ops s) (hf : Few s) (hd : blk s i = some d)
    (ha : AlOk s i al) (hr : off + n ≤ d.text.length) (hcase : SharedWith s i ∨ n ≤ off) :
    ∃ hr s' d', step cls s (.setStr i (.of i off n) al) = .ret hr s' ∧ blk s' i = some d' ∧
      ((hr = .ok ∧ d'.text = (d.text.drop off).take n) ∨ (hr = .oom ∧ al = none ∧ d'.text = [])) ∧
      (∀ k, k ≠ i → (blk s' k).map look = (blk s k).map look) := by
  have inv := run_inv r (inv_init cls)
  rw [text_length] at hr
  obtain ⟨p, hp⟩ := live_of_blk hd
  by_cases hv : n = 0 ∨ SharedWith s i
  · have hval : Valid s (.setStr i (.of i off n) al) := ⟨⟨p, hp⟩, ha, ⟨d, hd, hr⟩, by
      rcases hv with h | h
      · exact .inl h
      · exact .inr (.inr h)⟩
    have A := member_step inv hf hval rfl hd
    have hsrc : (Op.setStr i (.of i off n) al).src s = (d.text.drop off).take n := by
      simp only [Op.src, srcText, hd]
    rw [hsrc] at A
    unfold WPost at A
    split at A
    · exact A.elim
    · obtain ⟨_, _, d', _, h, _⟩ := A
      have := h (by simp [Exposed])
      simp only [Effect] at this
      rcases this with ⟨h, _⟩ | ⟨h, _⟩ | ⟨_, h1, h2, _⟩
      · cases h
      · cases h
      · exfalso
        have hm : s.mem p = some d := by rw [blk_eq hp] at hd; exact hd
        have hsz := inv.size_le hm
        simp only [List.length_take, List.length_drop, text_length] at h2
        omega
    · rename_i hr' s' e'
      obtain ⟨_, o, d', g, h, _⟩ := A
      have := h (by simp [Exposed])
      simp only [Effect] at this
      refine ⟨hr', s', d', e', g, ?_, fun k hk => (o.2 k hk).2⟩
      rcases this with ⟨h, h2⟩ | ⟨h, h2, h3⟩ | ⟨h, _⟩
      · cases h; exact .inl ⟨rfl, h2⟩
      · cases h; exact .inr ⟨rfl, h2, h3⟩
      · cases h
  · have hn0 : n ≠ 0 := fun h => hv (.inl h)
    have hns : ¬ SharedWith s i := fun h => hv (.inr h)
    have hoff : n ≤ off := hcase.resolve_left hns
    obtain ⟨p', d', hp', hm, hb, w⟩ := handle_facts inv ⟨p, hp⟩
    rw [hp] at hp'; cases hp'
    rw [hd] at hb; cases hb
    have hsz := inv.size_le hm
    have p0 : p ≠ 0 := by
      intro e; subst e; have := inv.zero_eq hm; subst this; simp [emptySD] at hr; omega
    have hsh : ¬ d.isShared := fun h => hns ((sharedWith_iff hp hm p0 w).2 h)
    have P : Post cls (cnt (s.hs.set i none)) s.mem (setStr cls s.mem p (.inn p off n) al)
        (fun hr d' => (hr = .ok ∧ d'.text = (d.text.drop off).take n)) (fun _ => False) := by
      have bd := few_bd0 hf i
      unfold setStr
      obtain ⟨m1, p1, d1, e1, L1, g1, s1, b1, sl1, en1, _, ex1, ne1⟩ := clear_ok w bd hm
      rw [e1]; dsimp only
      obtain ⟨hpp, hd1⟩ := ex1 hsh
      subst hpp
      have hf1 : Fresh m1 p1 al := by
        refine fresh_clear w hm (fresh_of hp hm w ha) (fun hh => absurd hh hsh) (fun hh => ?_) ne1
        exact ⟨rfl, d1, g1, by rw [hd1]; exact hh⟩
      have hd1s : ¬ d1.isShared := by rw [hd1]; exact hsh
      have hc1 : d1.cap = d.cap := by rw [hd1]
      rw [if_neg (show ¬ (Ptr.inn p1 off n).len = 0 from hn0)]
      rcases lockBuffer_ok L1.wf bd g1 hf1 (cap := n) with ⟨e, ha, hx⟩ | ⟨e, hl, hc⟩ | ⟨e, _⟩ | ⟨m2, q, d2, e, L2, K⟩
      · exfalso; rcases hx with hx | hx
        · exact hd1s hx
        · omega
      · omega
      · omega
      · dsimp only [Ptr.len]; rw [e]; dsimp only
        obtain ⟨x1, x2, x3, x4⟩ := K.excl hd1s
        obtain ⟨hq, hc⟩ := x4 (by omega)
        subst hq
        obtain ⟨B, eB, B1, B2⟩ := copyIn_ok (off := 0) (src := .inn q off n) K.nz K.get (by simp only [Ptr.len]; omega)
          ⟨⟨d2, K.get, by omega⟩, fun _ => .inr (by omega)⟩
        rw [eB]; dsimp only
        obtain ⟨m3, d3, e3, L3, g3, s3, z3, k3, sl3, en3, _⟩ := fill_ok L2 K B n K.room
        rw [e3]
        refine ⟨L1.trans L3, d3, g3, rfl, ?_⟩
        rw [drop_take_text _ _ _ hr]
        simp only [Ptr.len] at B1
        refine text_of s3 ?_
        intro k hk
        have := B1 k hk
        rw [Nat.zero_add] at this
        rw [k3 k hk, this]
        simp only [Ptr.ch]; rw [K.get]; dsimp only
        rw [x3 _ (by omega), hd1]; dsimp only
        rw [if_neg (by omega)]
    have e : step cls s (.setStr i (.of i off n) al) = onHandle s i (fun m p => setStr cls m p (.inn p off n) al) := by
      simp only [step, onHandleP, ptrOf, hp, onHandle]
    have A := onHandle_ok (f := fun m p => setStr cls m p (.inn p off n) al) hp P
    rw [e]
    unfold WPost at A
    split at A
    · exact A.elim
    · obtain ⟨_, _, _, _, h⟩ := A; exact h.elim
    · rename_i hr s' e'
      obtain ⟨_, o, d', g, h⟩ := A
      exact ⟨hr, s', d', e', g, .inl h, fun k hk => (o.2 k hk).2⟩

/-! ### C08 -/

/-- **C08 fails.**  Converting by move into an empty destination always leaves the destination pointing to
freed storage: the block attached to it is released once too often (StringTransform.cpp 99). -/
theorem C08_move_fails {cls clsB ops s i j d e f al s'} (r : Run cls (init cls) ops s) (hf : Few s) (hij : i ≠ j)
    (hd : blk s i = some d) (hne : d.text ≠ []) (he : blk s j = some e) (hempty : e.text = []) (ha : AlOk s i al)
    (hs : transformMove cls clsB f s i j al = .ret .ok s') :
    ∃ a, s'.hs[j]? = some (some a) ∧ s'.mem a = none := by
  have inv := run_inv r (inv_init cls)
  obtain ⟨p, hp⟩ := live_of_blk hd
  obtain ⟨q, hq⟩ := live_of_blk he
  obtain ⟨p', d', hp', hm, hb, w⟩ := handle_facts inv ⟨p, hp⟩
  rw [hp] at hp'; cases hp'
  rw [hd] at hb; cases hb
  have hmq : s.mem q = some e := by rw [blk_eq hq] at he; exact he
  have hsz : d.size ≠ 0 := fun h => hne (text_empty.2 h)
  have hez : e.size = 0 := text_empty.1 hempty
  have bd := few_bd0 hf i
  have oq := oth_pos (Ne.symm hij) hq
  unfold transformMove at hs
  rw [hp, hq] at hs; dsimp only at hs
  rw [hm, hmq] at hs; dsimp only at hs
  rw [if_neg hsz, if_pos hez] at hs
  rcases lockBuffer_ok w bd hm (fresh_of hp hm w ha) (cap := d.size) with ⟨e1, _⟩ | ⟨e1, _⟩ | ⟨e1, _⟩ | ⟨m2, p2, d2, e1, L2, K⟩
  · rw [e1] at hs; cases hs
  · rw [e1] at hs; cases hs
  · exact absurd e1 hsz
  · rw [e1] at hs; dsimp only at hs
    have hneg := (lock_unlock K.ref).1
    have ls := locked_sole L2.wf K.get K.nz hneg
    have room := K.room
    have sw : swapIn f m2 p2 d.size = some (upd m2 p2 (some { d2 with buf := fun k => if k < d.size then f (d2.buf k) else d2.buf k })) := by
      unfold swapIn; rw [K.get]; dsimp only; rw [if_neg K.nz, if_neg (by omega)]
    rw [sw] at hs; dsimp only at hs
    obtain ⟨m3, d3, e3, L3, g3, s3, z3, k3, sl3, en3, cp3, ne3⟩ := fill_ok L2 K
      (fun k => if k < d.size then f (d2.buf k) else d2.buf k) (e.size + d.size) (by omega)
    rw [e3] at hs; dsimp only at hs
    rw [g3] at hs; dsimp only at hs
    have pq : p2 ≠ q := by intro h; subst h; omega
    -- the destination's old block goes, then the attached one
    have hx : Excl d3 := by
      have := L3.wf.blk p2 d3 K.nz g3
      rw [plus_eq, ls.1] at this
      unfold Excl; omega
    cases e4 : release (upd m3 p2 (some { d3 with enc := clsB })) q with
    | none => rw [e4] at hs; cases hs
    | some m4 =>
      rw [e4] at hs; dsimp only at hs
      have g4 : m4 p2 = some { d3 with enc := clsB } := by
        unfold release at e4
        split at e4
        · cases e4
        · split at e4
          · cases e4; exact upd_eq _ _ _
          · split at e4
            · cases e4; rw [upd_ne _ _ pq, upd_eq]
            · split at e4
              · cases e4; rw [upd_ne _ _ pq, upd_eq]
              · cases e4; rw [upd_ne _ _ pq, upd_eq]
      have e5 : release m4 p2 = some (upd m4 p2 none) := by
        unfold release; rw [g4]; dsimp only
        unfold Excl at hx
        rw [if_neg (by unfold SD.isReadOnly imax; dsimp only; omega)]
        split
        · rfl
        · rw [if_pos (by omega)]
      rw [e5] at hs; dsimp only at hs
      cases hs
      refine ⟨p2, ?_, upd_eq _ _ _⟩
      dsimp only
      rw [List.getElem?_set_self (by simpa using lt_of_get hq)]

/-- C08: an empty source is accepted and nothing changes. -/
theorem C08_empty_partial {clsA clsB s i j d e f al} (hd : blk s i = some d) (hne : d.text = []) (he : blk s j = some e) :
    transformMove clsA clsB f s i j al = .ret .ok s := by
  obtain ⟨p, hp⟩ := live_of_blk hd
  obtain ⟨q, hq⟩ := live_of_blk he
  have h0 : d.size = 0 := by have := congrArg List.length hne; simpa [SD.text] using this
  have hm : s.mem p = some d := by unfold blk at hd; rw [hp] at hd; exact hd
  have hn : s.mem q = some e := by unfold blk at he; rw [hq] at he; exact he
  unfold transformMove
  rw [hp, hq]; dsimp only; rw [hm, hn]; dsimp only; rw [if_pos h0]

/-- **C08 (partial).**  Into a non-empty destination the conversion appends the byte-swapped text, leaves every
other handle (the source included) as it was, and the storage invariant holds afterwards, so the destination's
block is alive and the destination is its only owner. -/
theorem C08_append_partial {cls ops s i j d e f al} (r : Run cls (init cls) ops s) (hf : Few s) (hij : i ≠ j)
    (hd : blk s i = some d) (hne : d.text ≠ []) (he : blk s j = some e) (hdst : e.text ≠ []) (hl : ¬ e.isLocked)
    (ha : AlOk s j al) :
    ∃ hr s', transformMove cls cls f s i j al = .ret hr s' ∧ Inv cls s' ∧ (∀ k, k ≠ j → (blk s' k).map look = (blk s k).map look) ∧
      ∃ e', blk s' j = some e' ∧
        ((hr = .ok ∧ e'.text = e.text ++ d.text.map f ∧ ¬ SharedWith s' j ∧ e'.buf e'.text.length = 0) ∨ (hr = .oom ∧ al = none ∧ e'.text = e.text)) := by
  have inv := run_inv r (inv_init cls)
  obtain ⟨p, hp⟩ := live_of_blk hd
  obtain ⟨q, hq⟩ := live_of_blk he
  obtain ⟨q', e', hq', hm, hb, w⟩ := handle_facts inv ⟨q, hq⟩
  rw [hq] at hq'; cases hq'
  rw [he] at hb; cases hb
  have hmp : s.mem p = some d := by rw [blk_eq hp] at hd; exact hd
  have hsz : d.size ≠ 0 := fun h => hne (text_empty.2 h)
  have hez : e.size ≠ 0 := fun h => hdst (text_empty.2 h)
  have bd := few_bd0 hf j
  have op := oth_pos hij hp
  unfold transformMove
  rw [hp, hq]; dsimp only
  rw [hmp, hm]; dsimp only
  rw [if_neg hsz, if_neg hez]
  rcases lockBuffer_ok w bd hm (fresh_of hq hm w ha) (cap := e.size + d.size) with ⟨e1, hal, _⟩ | ⟨e1, hlk, _⟩ | ⟨e1, _⟩ | ⟨m2, q2, d2, e1, L2, K⟩
  · rw [e1]; dsimp only
    obtain ⟨a, b, c⟩ := commit hq (Loc.refl w) hm
    exact ⟨_, _, rfl, a, fun k hk => (b.2 k hk).2, e, c, .inr ⟨rfl, hal, rfl⟩⟩
  · exact absurd hlk hl
  · omega
  · rw [e1]; dsimp only
    obtain ⟨d1, gp, c1, c2, c3, _⟩ := obs_some (L2.frame p op) hmp
    rw [gp]; dsimp only
    have room := K.room
    obtain ⟨B, eB, B1, B2⟩ := copyIn_ok (off := e.size) (src := .ext ((List.range d.size).map fun k => f (d1.buf k)))
      K.nz K.get (by simp [Ptr.len]; omega) trivial
    rw [eB]; dsimp only
    obtain ⟨m3, d3, e3, L3, g3, s3, z3, k3, sl3, en3, _⟩ := fill_ok L2 K B (e.size + d.size) K.room
    rw [e3]; dsimp only
    obtain ⟨a, b, c⟩ := commit hq L3 g3
    have hneg := (lock_unlock K.ref).1
    have ls := locked_sole L2.wf K.get K.nz hneg
    refine ⟨_, _, rfl, a, fun k hk => (b.2 k hk).2, d3, c, .inl ⟨rfl, ?_, ?_, ?_⟩⟩
    · simp only [Ptr.len, List.length_map, List.length_range] at B1 B2
      have ht : d.text.map f = (List.range d.size).map fun k => f (d.buf k) := by
        unfold SD.text; rw [List.map_map]; rfl
      rw [ht]
      refine text_append s3 ?_ ?_
      · intro k hk; rw [k3 k (by omega), B2 k (by omega)]; exact K.buf k hk
      · intro k hk; rw [k3 _ (by omega), B1 k hk]
        simp [Ptr.ch, hk, c2]
    · rintro ⟨k, hk, x, hx, hkx⟩
      dsimp only at hx hkx
      rw [List.getElem?_set_self (lt_of_get hq)] at hx; cases hx
      rw [List.getElem?_set_ne (Ne.symm hk)] at hkx
      have := oth_pos hk hkx
      omega
    · rw [text_length, s3]; exact z3

end Verif.StrHeap
