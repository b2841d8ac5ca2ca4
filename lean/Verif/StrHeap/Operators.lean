import Verif.StrHeap.Witness

/-!
C117: the operators `=`, `+=` and `+` of String do their job or throw; `+=` and `+` then leave every String as it was.
`operator=` does not (`C117_assign_fails`: the old text is lost), and the move assignment of a locked String ends the
program (`C117_move_locked_fails`).
-/

namespace Verif.StrHeap

/-- `if (FAILED(_hr)) throw Exception(..)` of the operators (String.h 563-570, 572-579, 600-607, 609-616, 618-625) -/
def orThrow : Out → Out
  | .ret .ok s => .ret .ok s
  | .ret _ s => .thr s
  | o => o

/-- `operator=(const char_t*)` with a pointer that is not null (String.h 563-570) -/
def setOp (cls : Nat) (s : St) (i : Nat) (src : Src) (al : Al) : Out := orThrow (step cls s (.setStr i src al))
/-- `operator=(const StringBase&)` (String.h 572-579) -/
def assignOp (cls : Nat) (s : St) (i j : Nat) (al : Al) : Out := orThrow (step cls s (.assign i j al))
/-- `operator=(StringBase&&)`, which is `noexcept` (String.h 581-590); `none`: the program ends -/
def moveOp (cls : Nat) (s : St) (i j : Nat) : Option Out :=
  match step cls s (.moveAssign i j) with
  | .thr _ => none
  | .ret .ok s => some (.ret .ok s)
  | .ret _ _ => none
  | .ub => some .ub
/-- `operator+=(const char_t*)` (String.h 600-607) -/
def addOp (cls : Nat) (s : St) (i : Nat) (src : Src) (al : Al) : Out := orThrow (step cls s (.append i src al))
/-- `operator+=(const StringBase&)` (String.h 609-616) -/
def addSOp (cls : Nat) (s : St) (i j : Nat) (al : Al) : Out := orThrow (step cls s (.appendS i j al))
/-- `operator+=(char_t)` (String.h 618-625) -/
def addCharOp (cls : Nat) (s : St) (i c : Nat) (al : Al) : Out := orThrow (step cls s (.appendChar i c al))

/-- `operator+` (String.h 592-598): a copy of the left operand, `+=` on it, the copy is the result (a new handle).  When
`+=` throws, the copy is destroyed. -/
def plusOp (cls : Nat) (s : St) (i : Nat) (src : Src) (al1 al2 : Al) : Out :=
  match step cls s (.copy i al1) with
  | .ub => .ub
  | .thr s => .thr s
  | .ret _ s1 =>
    match addOp cls s1 s.hs.length src al2 with
    | .ub => .ub
    | .ret hr s2 => .ret hr s2
    | .thr s2 =>
      match step cls s2 (.del s.hs.length) with
      | .ret _ s3 => .thr s3
      | _ => .ub

/-! ### `+=` -/

/-- the result of `+=`: the text is appended, or the operator throws – for lack of memory, or because the buffer is
locked and too small – and the text is as before; no other String changes in either case -/
def AddPost (s : St) (i : Nat) (d : SD) (t : List Nat) (al : Al) (o : Out) : Prop :=
  ∃ s' d', blk s' i = some d' ∧ (∀ k, k ≠ i → k < s.hs.length → (blk s' k).map look = (blk s k).map look) ∧
    ((o = .ret .ok s' ∧ d'.text = d.text ++ t) ∨
     (o = .thr s' ∧ d'.text = d.text ∧ (al = none ∨ (d.isLocked ∧ d.cap < d.text.length + t.length))))

theorem add_post {cls s op i d t al} (hi : op.self? = some i) (ht : op.targets = [i]) {ops} (r : Run cls (init cls) ops s)
    (hf : Few s) (hv : Valid s op) (hd : blk s i = some d) (hne : ¬ Exposed s d op)
    (he : ∀ d' x, Effect d d' (op.src s) x op → (x = some .ok ∧ d'.text = d.text ++ t) ∨ (x = some .oom ∧ al = none ∧ d'.text = d.text) ∨
      (x = none ∧ d.isLocked ∧ d.cap < d.text.length + t.length ∧ d'.text = d.text)) :
    AddPost s i d t al (orThrow (step cls s op)) := by
  obtain ⟨s', hs, _, _⟩ := step_safe (run_inv r (inv_init cls)) hf hv
  have ho := C09_others r hv hf hs
  obtain ⟨d', h1, h2⟩ := C09_as_unshared_partial r hv hf hi hd hne hs
  refine ⟨s', d', h1, fun k hk hl => ho k (by rw [ht]; simpa using hk) hl, ?_⟩
  cases e : step cls s op with
  | ub => rw [e] at hs; cases hs
  | thr s2 =>
    rw [e] at hs h2; cases hs
    rcases he _ _ h2 with ⟨h, _⟩ | ⟨h, _⟩ | ⟨_, a, b, c⟩
    · cases h
    · cases h
    · exact .inr ⟨rfl, c, .inr ⟨a, b⟩⟩
  | ret hr s2 =>
    rw [e] at hs h2; cases hs
    rcases he _ _ h2 with ⟨h, a⟩ | ⟨h, a, b⟩ | ⟨h, _⟩
    · cases h; exact .inl ⟨rfl, a⟩
    · cases h; exact .inr ⟨rfl, b, .inl a⟩
    · cases h

/-- `s += p` for a text outside of `s` (or inside, when another String shares the storage; C16 has the rest) -/
theorem C117_add_partial {cls ops s i d src al} (r : Run cls (init cls) ops s) (hf : Few s) (hd : blk s i = some d)
    (ha : AlOk s i al) (hs : SrcValid s i src) : AddPost s i d (srcText s src) al (addOp cls s i src al) :=
  add_post rfl rfl r hf ⟨live_of_blk hd, ha, hs⟩ hd (by simp [Exposed]) (fun _ _ h => h)

/-- `s += t` for another String `t` -/
theorem C117_add_string_partial {cls ops s i j d e al} (r : Run cls (init cls) ops s) (hf : Few s) (hd : blk s i = some d)
    (he : blk s j = some e) (hij : i = j → SharedWith s i) (ha : AlOk s i al) : AddPost s i d e.text al (addSOp cls s i j al) := by
  refine add_post (op := .appendS i j al) rfl rfl r hf ⟨live_of_blk hd, live_of_blk he, ha, hij⟩ hd (by simp [Exposed]) (fun _ _ h => ?_)
  simp only [Effect, Op.src, he] at h
  exact h

/-- `s += c` -/
theorem C117_add_char {cls ops s i d c al} (r : Run cls (init cls) ops s) (hf : Few s) (hd : blk s i = some d)
    (ha : AlOk s i al) : AddPost s i d [c] al (addCharOp cls s i c al) :=
  add_post rfl rfl r hf ⟨live_of_blk hd, ha⟩ hd (by simp [Exposed]) (fun _ _ h => h)

/-! ### `+` -/

/-- the copy that `operator+` starts with -/
theorem copy_cases {cls ops s j al e} (r : Run cls (init cls) ops s) (hv : Valid s (.copy j al)) (hf : Few s) (he : blk s j = some e) :
    (∃ s1 d', step cls s (.copy j al) = .ret .ok s1 ∧ s1.hs.length = s.hs.length + 1 ∧ blk s1 s.hs.length = some d' ∧ d'.text = e.text ∧ ¬ d'.isLocked) ∨
    (step cls s (.copy j al) = .thr s ∧ al = none) := by
  have inv := run_inv r (inv_init cls)
  obtain ⟨s1, hs1, _, _⟩ := step_safe inv hf hv
  have hcopy := fun s' => C09_copy (s' := s') r hv hf he
  obtain ⟨⟨a, hj⟩, hal⟩ := hv
  have he' := he
  rw [blk_eq hj] at he'
  simp only [step, hj, he'] at hcopy ⊢
  by_cases hl : e.isLocked
  · rw [if_pos hl] at hcopy ⊢
    have hes := inv.size_le he'
    have w0 : WF cls s.mem (plus (cnt s.hs) 0) := wf_plus0 inv
    have A := setStr_ok (src := .inn a 0 e.size) (al := al) w0 (few_bd1 hf) inv.zero
      (fun q x h => ⟨(hal q x h).1, .inl (hal q x h).2⟩) (.inr ⟨cnt_pos hj, e, he', by omega⟩)
    cases heq : setStr cls s.mem 0 (.inn a 0 e.size) al with
    | ub => rw [heq] at A; exact A.elim
    | thr m p => rw [heq] at A; obtain ⟨_, _, _, hh, _⟩ := A; simp [SD.isLocked, emptySD, imax] at hh
    | ret hr m p =>
      rw [heq] at A hcopy
      obtain ⟨_, d', g, _, sl, _, hh⟩ := A
      rcases hh with ⟨rfl, _⟩ | ⟨rfl, ha, _⟩
      · obtain ⟨x, hx, ht⟩ := hcopy _ rfl
        have hb : blk (⟨m, s.hs ++ [some p]⟩ : St) s.hs.length = some d' := by
          unfold blk; dsimp only; rw [List.getElem?_append_right (Nat.le_refl _), Nat.sub_self]; exact g
        rw [hb] at hx; cases hx
        refine .inl ⟨_, d', rfl, by simp, hb, ht, ?_⟩
        unfold SameLock at sl
        rw [if_neg (by simp [emptySD, imax])] at sl
        unfold SD.isLocked; omega
      · subst ha
        have := setStr_static_none inv heq
        subst this
        exact .inr ⟨rfl, rfl⟩
  · rw [if_neg hl] at hcopy ⊢
    obtain ⟨m1, e1, w1, ob1, _⟩ := addRef_ok inv (few_bd1 hf) (cnt_pos hj) he' hl
    rw [e1] at hcopy ⊢
    obtain ⟨x, hx, ht⟩ := hcopy _ rfl
    obtain ⟨e2, h1, _, _, _, _, h6⟩ := obs_some (ob1 a) he'
    have hb : blk (⟨m1, s.hs ++ [some a]⟩ : St) s.hs.length = some e2 := by
      unfold blk; dsimp only; rw [List.getElem?_append_right (Nat.le_refl _), Nat.sub_self]; exact h1
    rw [hb] at hx
    obtain rfl : e2 = x := Option.some.inj hx
    refine .inl ⟨_, e2, rfl, by simp, hb, ht, ?_⟩
    unfold SD.isLocked at hl ⊢; omega

/-- the right operand: text outside of every String, or part of the text of a String – the left operand included -/
def Operand (s : St) : Src → Prop
  | .ext _ => True
  | .of h off n => ∃ d, blk s h = some d ∧ off + n ≤ d.text.length

theorem text_of_look {d e : SD} (h : look d = look e) : d.text = e.text := congrArg Prod.fst h

/-- `s + p`: the result has the text of `s` followed by that of `p`, also when `p` points into `s`, or the operator throws
for lack of memory.  Either way every existing String – `s` as well – is as before, and what follows is an ordinary history
again, so all that is proved for those (nothing leaked, nothing freed too early, C10) goes on to hold. -/
theorem C117_plus {cls ops s i d src al1 al2} (r : Run cls (init cls) ops s) (hf : (s.hs.length : Int) + 6 < imax) (hd : blk s i = some d)
    (h1 : ∀ q x, al1 = some (q, x) → q ≠ 0 ∧ s.mem q = none)
    (h2 : ∀ s1, step cls s (.copy i al1) = .ret .ok s1 → AlOk s1 s.hs.length al2) (hs : Operand s src) :
    ∃ s' ops', Run cls (init cls) ops' s' ∧ (∀ k, k < s.hs.length → (blk s' k).map look = (blk s k).map look) ∧
      ((plusOp cls s i src al1 al2 = .ret .ok s' ∧ ∃ d', blk s' s.hs.length = some d' ∧ d'.text = d.text ++ srcText s src) ∨
       (plusOp cls s i src al1 al2 = .thr s' ∧ (al1 = none ∨ al2 = none) ∧ ∀ k, s.hs.length ≤ k → ¬ Live s' k)) := by
  have hf0 : Few s := by unfold Few; omega
  have hv : Valid s (.copy i al1) := ⟨live_of_blk hd, h1⟩
  rcases copy_cases r hv hf0 hd with ⟨s1, c, e1, hlen, hb1, ht1, hl1⟩ | ⟨e1, ha⟩
  · have hs1 : (step cls s (.copy i al1)).st = some s1 := by rw [e1]; rfl
    have r1 : Run cls (init cls) (ops ++ [.copy i al1]) s1 := r.append (.cons hv hf0 hs1 (.nil _))
    have ho1 : ∀ k, k < s.hs.length → (blk s1 k).map look = (blk s k).map look := fun k hk =>
      C09_others r hv hf0 hs1 k (by simp [Op.targets]) hk
    have hf1 : Few s1 := by unfold Few; rw [hlen]; push_cast; omega
    -- the right operand is still there
    have hsrc : SrcValid s1 s.hs.length src ∧ srcText s1 src = srcText s src := by
      cases src with
      | ext l => exact ⟨trivial, rfl⟩
      | of h off n =>
        obtain ⟨x, hx, hn⟩ := hs
        have hh : h < s.hs.length := by
          obtain ⟨a, ha⟩ := live_of_blk hx
          exact (List.getElem?_eq_some_iff.mp ha).1
        have ho := ho1 h hh
        rw [hx] at ho
        cases hy : blk s1 h with
        | none => rw [hy] at ho; cases ho
        | some y =>
          rw [hy] at ho
          have hxy : y.text = x.text := text_of_look (Option.some.inj ho)
          refine ⟨⟨⟨y, hy, ?_⟩, .inr (.inl (by omega))⟩, ?_⟩
          · rw [← text_length, hxy]; exact hn
          · simp only [srcText, hx, hy, hxy]
    have A := C117_add_partial r1 hf1 hb1 (h2 s1 e1) hsrc.1
    obtain ⟨s2, c2, hb2, ho2, A⟩ := A
    have hv2 : Valid s1 (.append s.hs.length src al2) := ⟨live_of_blk hb1, h2 s1 e1, hsrc.1⟩
    obtain ⟨s2', hs2, _, _⟩ := step_safe (run_inv r1 (inv_init cls)) hf1 hv2
    have hsame : s2' = s2 := by
      unfold addOp at A
      cases e : step cls s1 (.append s.hs.length src al2) with
      | ub => rw [e] at hs2; cases hs2
      | thr x =>
        rw [e] at hs2 A; cases hs2
        rcases A with ⟨h, _⟩ | ⟨h, _⟩
        · cases h
        · cases h; rfl
      | ret hr x =>
        rw [e] at hs2 A; cases hs2
        rcases A with ⟨h, _⟩ | ⟨h, _⟩ <;> cases hr <;> cases h <;> rfl
    subst hsame
    have r2 : Run cls (init cls) (ops ++ [.copy i al1] ++ [.append s.hs.length src al2]) s2' := r1.append (.cons hv2 hf1 hs2 (.nil _))
    have ho2' : ∀ k, k < s.hs.length → (blk s2' k).map look = (blk s k).map look := fun k hk =>
      (ho2 k (by omega) (by omega)).trans (ho1 k hk)
    rcases A with ⟨e2, ht2⟩ | ⟨e2, _, hw⟩
    · refine ⟨s2', _, r2, ho2', .inl ⟨?_, c2, hb2, by rw [ht2, ht1, hsrc.2]⟩⟩
      unfold plusOp; rw [e1]; dsimp only; rw [e2]
    · have hal : al2 = none := by
        rcases hw with h | ⟨h, _⟩
        · exact h
        · exact absurd h hl1
      have hlen2 : s2'.hs.length = s.hs.length + 1 := by
        have A := member_step (run_inv r1 (inv_init cls)) hf1 hv2 rfl hb1
        unfold WPost at A
        split at A
        · exact A.elim
        · rename_i x heq; rw [heq] at hs2; cases hs2; rw [A.2.1.1]; exact hlen
        · rename_i x y heq; rw [heq] at hs2; cases hs2; rw [A.2.1.1]; exact hlen
      have hf2 : Few s2' := by unfold Few; rw [hlen2]; push_cast; omega
      have hv3 : Valid s2' (.del s.hs.length) := live_of_blk hb2
      obtain ⟨s3, hs3, _, sm⟩ := step_safe (run_inv r2 (inv_init cls)) hf2 hv3
      have r3 := r2.append (.cons hv3 hf2 hs3 (.nil _))
      obtain ⟨a, ha⟩ := live_of_blk hb2
      have e3 : step cls s2' (.del s.hs.length) = .ret .ok s3 ∧ s3.hs = s2'.hs.set s.hs.length none := by
        simp only [step, ha] at hs3 ⊢
        split at hs3
        · cases hs3
        · cases hs3; exact ⟨rfl, rfl⟩
      refine ⟨s3, _, r3, fun k hk => ((sm k (by simp [Op.targets]; omega) (by omega)).2).trans (ho2' k hk), .inr ⟨?_, .inr hal, fun k hk => ?_⟩⟩
      · unfold plusOp; rw [e1]; dsimp only; rw [e2]; dsimp only; rw [e3.1]
      · rintro ⟨b, hb⟩
        rw [e3.2] at hb
        by_cases hkk : k = s.hs.length
        · subst hkk; rw [List.getElem?_set_self (by omega)] at hb; cases hb
        · rw [List.getElem?_set_ne (fun h => hkk h.symm), List.getElem?_eq_none (by omega)] at hb; cases hb
  · refine ⟨s, ops, r, fun _ _ => rfl, .inr ⟨?_, .inl ha, fun k hk => ?_⟩⟩
    · unfold plusOp; rw [e1]
    · rintro ⟨b, hb⟩; rw [List.getElem?_eq_none hk] at hb; cases hb

/-! ### `=` -/

/-- the result of `=`: the new text, or an exception – and then the old text is gone: the String is empty.  No other String changes. -/
def SetPost (s : St) (i : Nat) (d : SD) (t : List Nat) (al : Al) (o : Out) : Prop :=
  ∃ s' d', blk s' i = some d' ∧ (∀ k, k ≠ i → k < s.hs.length → (blk s' k).map look = (blk s k).map look) ∧
    ((o = .ret .ok s' ∧ d'.text = t) ∨ (o = .thr s' ∧ d'.text = [] ∧ (al = none ∨ (d.isLocked ∧ d.cap < t.length))))

theorem set_post {cls s op i d t al} (hi : op.self? = some i) (ht : op.targets = [i]) {ops} (r : Run cls (init cls) ops s)
    (hf : Few s) (hv : Valid s op) (hd : blk s i = some d) (hne : ¬ Exposed s d op)
    (he : ∀ d' x, Effect d d' (op.src s) x op → (x = some .ok ∧ d'.text = t) ∨ (x = some .oom ∧ al = none ∧ d'.text = []) ∨
      (x = none ∧ d.isLocked ∧ d.cap < t.length ∧ d'.text = [])) :
    SetPost s i d t al (orThrow (step cls s op)) := by
  obtain ⟨s', hs, _, _⟩ := step_safe (run_inv r (inv_init cls)) hf hv
  have ho := C09_others r hv hf hs
  obtain ⟨d', h1, h2⟩ := C09_as_unshared_partial r hv hf hi hd hne hs
  refine ⟨s', d', h1, fun k hk hl => ho k (by rw [ht]; simpa using hk) hl, ?_⟩
  cases e : step cls s op with
  | ub => rw [e] at hs; cases hs
  | thr s2 =>
    rw [e] at hs h2; cases hs
    rcases he _ _ h2 with ⟨h, _⟩ | ⟨h, _⟩ | ⟨_, a, b, c⟩
    · cases h
    · cases h
    · exact .inr ⟨rfl, c, .inr ⟨a, b⟩⟩
  | ret hr s2 =>
    rw [e] at hs h2; cases hs
    rcases he _ _ h2 with ⟨h, a⟩ | ⟨h, a, b⟩ | ⟨h, _⟩
    · cases h; exact .inl ⟨rfl, a⟩
    · cases h; exact .inr ⟨rfl, b, .inl a⟩
    · cases h

/-- `s = p` -/
theorem C117_assign_partial {cls ops s i d src al} (r : Run cls (init cls) ops s) (hf : Few s) (hd : blk s i = some d)
    (ha : AlOk s i al) (hs : SrcValid s i src) : SetPost s i d (srcText s src) al (setOp cls s i src al) :=
  set_post rfl rfl r hf ⟨live_of_blk hd, ha, hs⟩ hd (by simp [Exposed]) (fun _ _ h => h)

/-- `s = t` for a String `t`, `s` itself included -/
theorem C117_assign_string_partial {cls ops s i j d e al} (r : Run cls (init cls) ops s) (hf : Few s) (hd : blk s i = some d)
    (he : blk s j = some e) (ha : AlOk s i al) : SetPost s i d e.text al (assignOp cls s i j al) := by
  refine set_post (op := .assign i j al) rfl rfl r hf ⟨live_of_blk hd, live_of_blk he, ha⟩ hd (by simp [Exposed]) (fun _ _ h => ?_)
  simp only [Effect, Op.src, he] at h
  exact h

/-- **C117 fails for `=`**: whenever it throws, the String has lost its text. -/
theorem C117_assign_fails {cls ops s i d src al s'} (r : Run cls (init cls) ops s) (hf : Few s) (hd : blk s i = some d)
    (ha : AlOk s i al) (hs : SrcValid s i src) (ht : setOp cls s i src al = .thr s') (hne : d.text ≠ []) :
    ∃ d', blk s' i = some d' ∧ d'.text ≠ d.text := by
  obtain ⟨s2, d', h1, _, h⟩ := C117_assign_partial r hf hd ha hs
  rcases h with ⟨h, _⟩ | ⟨h, h3, _⟩
  · rw [ht] at h; cases h
  · rw [ht] at h; cases h; exact ⟨d', h1, fun h => hne (h ▸ h3)⟩

/-- **C117 fails for the move assignment**: a locked source with other storage ends the program, since the operator is
`noexcept`; every other source is fine. -/
theorem C117_move_locked_fails {cls ops s i j d e} (r : Run cls (init cls) ops s) (hf : Few s) (hd : blk s i = some d)
    (he : blk s j = some e) : moveOp cls s i j = none ↔ e.isLocked ∧ s.hs[i]? ≠ s.hs[j]? := by
  obtain ⟨a, ha⟩ := live_of_blk hd
  obtain ⟨b, hb⟩ := live_of_blk he
  have he' := he
  rw [blk_eq hb] at he'
  have safe := step_safe (op := .moveAssign i j) (run_inv r (inv_init cls)) hf ⟨⟨a, ha⟩, ⟨b, hb⟩⟩
  obtain ⟨s', hs', _⟩ := safe
  unfold moveOp
  simp only [step, ha, hb, he'] at hs' ⊢
  by_cases hab : a = b
  · subst hab; simp
  · rw [if_neg hab] at hs' ⊢
    by_cases hl : e.isLocked
    · rw [if_pos hl]; simp [hl, hab]
    · rw [if_neg hl] at hs' ⊢
      cases hr : release s.mem a with
      | none => rw [hr] at hs'; cases hs'
      | some m => simp [hl]

/-- "abc" + "abc" of the same String, with and without memory; the assignment that loses the text; the locked source -/
theorem C117_example :
    (∃ s, Run 0 (init 0) [.new, .setStr 0 (.ext [97, 98, 99]) (at_ 1)] s ∧
      (match plusOp 0 s 0 (.of 0 1 2) none (at_ 2) with | .ret .ok s' => (seen s' 0).map Seen.text = some [97, 98, 99] ∧ (seen s' 1).map Seen.text = some [97, 98, 99, 98, 99] | _ => False) ∧
      (match plusOp 0 s 0 (.of 0 1 2) none none with | .thr s' => (seen s' 0).map Seen.text = some [97, 98, 99] ∧ seen s' 1 = none | _ => False) ∧
      (match setOp 0 s 0 (.ext (List.replicate 40 65)) none with | .thr s' => (seen s' 0).map Seen.text = some [] | _ => False)) ∧
    (∃ s, Run 0 (init 0) [.new, .setStr 0 (.ext [97, 98, 99]) (at_ 1), .lock 0 3 none, .new] s ∧ moveOp 0 s 1 0 = none) := by
  obtain ⟨s, r, h⟩ := witness (cls := 0) (ops := [.new, .setStr 0 (.ext [97, 98, 99]) (at_ 1)])
    (fun s => (match plusOp 0 s 0 (.of 0 1 2) none (at_ 2) with | .ret .ok s' => decide ((seen s' 0).map Seen.text = some [97, 98, 99] ∧ (seen s' 1).map Seen.text = some [97, 98, 99, 98, 99]) | _ => false) &&
      ((match plusOp 0 s 0 (.of 0 1 2) none none with | .thr s' => decide ((seen s' 0).map Seen.text = some [97, 98, 99] ∧ seen s' 1 = none) | _ => false) &&
      (match setOp 0 s 0 (.ext (List.replicate 40 65)) none with | .thr s' => decide ((seen s' 0).map Seen.text = some []) | _ => false))) (by decide +kernel)
  obtain ⟨t, q, g⟩ := witness (cls := 0) (ops := [.new, .setStr 0 (.ext [97, 98, 99]) (at_ 1), .lock 0 3 none, .new])
    (fun s => (moveOp 0 s 1 0).isNone) (by decide +kernel)
  simp only [Bool.and_eq_true] at h
  obtain ⟨h1, h2, h3⟩ := h
  refine ⟨⟨s, r, ?_, ?_, ?_⟩, t, q, Option.isNone_iff_eq_none.mp g⟩
  · split at h1
    · exact of_decide_eq_true h1
    · cases h1
  · split at h2
    · exact of_decide_eq_true h2
    · cases h2
  · split at h3
    · exact of_decide_eq_true h3
    · cases h3

end Verif.StrHeap
