import Verif.StrHeap.Props
import Verif.StrHeap.Witness

/-! C99: the code page of an ANSI string.

`eEncoding` of the storage block says which code page the bytes of an `aString` are in (String.h 506-544, 1071). The theorems say what each operation of the model does with it. -/

namespace Verif.StrHeap

/-- a successful result whose block has code page `e` -/
def RK (e : Nat) (r : Res) : Prop := ∀ m p, r = .ret .ok m p → ∃ d', m p = some d' ∧ d'.enc = e

/-- block `p` of `m` has code page `e` -/
def Has (m : Mem) (p e : Nat) : Prop := ∃ d, m p = some d ∧ d.enc = e

theorem rk_ub (e : Nat) : RK e .ub := by intro m p h; cases h
theorem rk_thr (e : Nat) (m : Mem) (p : Nat) : RK e (.thr m p) := by intro m p h; cases h
theorem rk_bad {e : Nat} {hr : Hr} (h : hr ≠ .ok) (m : Mem) (p : Nat) : RK e (.ret hr m p) := by intro m p h2; cases h2; exact absurd rfl h
theorem rk_ret {e : Nat} {hr : Hr} {m : Mem} {p : Nat} (h : Has m p e) : RK e (.ret hr m p) := by intro m p h2; cases h2; exact h

theorem upd_self (m : Mem) (a : Nat) (v : Option SD) : upd m a v a = v := by simp [upd]

theorem has_upd {m : Mem} {p e : Nat} {d : SD} (h : d.enc = e) : Has (upd m p (some d)) p e := ⟨d, by simp [upd], h⟩

theorem doLock_rk {m : Mem} {p e : Nat} (h : Has m p e) : RK e (doLock m p) := by
  obtain ⟨d, hd, he⟩ := h
  unfold doLock; rw [hd]; dsimp only
  split
  · exact rk_ret ⟨d, hd, he⟩
  · split
    · exact rk_thr _ _ _
    · exact rk_ret (has_upd he)

theorem doUnlock_rk {m : Mem} {p e : Nat} (h : Has m p e) : RK e (doUnlock m p) := by
  obtain ⟨d, hd, he⟩ := h
  unfold doUnlock; rw [hd]; dsimp only
  split
  · exact rk_thr _ _ _
  · exact rk_ret (has_upd he)

theorem wr_has {m m' : Mem} {p k c e : Nat} (h : Has m p e) (w : wr m p k c = some m') : Has m' p e := by
  obtain ⟨d, hd, he⟩ := h
  unfold wr at w; rw [hd] at w; dsimp only at w
  split at w
  · cases w
  · split at w
    · cases w
    · cases w; exact has_upd he

theorem copyIn_has {m m' : Mem} {p off e : Nat} {src : Ptr} (h : Has m p e) (w : copyIn m p off src = some m') : Has m' p e := by
  obtain ⟨d, hd, he⟩ := h
  unfold copyIn at w; rw [hd] at w; dsimp only at w
  split at w
  · cases w
  · cases src with
    | ext l =>
      dsimp only at w
      split at w
      · cases w
      · cases w; exact has_upd he
    | inn a o n =>
      dsimp only at w
      split at w
      · cases w
      · split at w
        · cases w
        · split at w
          · cases w
          · cases w; exact has_upd he

theorem moveIn_has {m m' : Mem} {p off o n e : Nat} (h : Has m p e) (w : moveIn m p off o n = some m') : Has m' p e := by
  obtain ⟨d, hd, he⟩ := h
  unfold moveIn at w; rw [hd] at w; dsimp only at w
  split at w
  · cases w
  · split at w
    · cases w
    · cases w; exact has_upd he

theorem unlock_rk {m : Mem} {p e : Nat} (h : Has m p e) : RK e (unlock m p) := by
  have h0 := h
  obtain ⟨d, hd, he⟩ := h
  unfold unlock; rw [hd]; dsimp only
  split
  · exact rk_ret h0
  · exact doUnlock_rk h0

theorem unlockN_rk {m : Mem} {p n e : Nat} (h : Has m p e) : RK e (unlockN m p n) := by
  have h0 := h
  obtain ⟨d, hd, he⟩ := h
  unfold unlockN; rw [hd]; dsimp only
  split
  · exact rk_ret h0
  · split
    · exact rk_thr _ _ _
    · split
      · exact rk_ub _
      · rename_i m1 hw
        refine doUnlock_rk (wr_has ?_ hw)
        exact has_upd (by exact he)

/-- `Release` of another block -/
theorem release_other {m m' : Mem} {a p : Nat} (h : release m a = some m') (hp : p ≠ a) : m' p = m p := by
  unfold release at h
  split at h
  · cases h
  · split at h
    · cases h; rfl
    · split at h
      · cases h; simp [upd, hp]
      · split at h <;> (cases h; simp [upd, hp])

/-- `Release` of the static block -/
theorem release_static {m m' : Mem} {a : Nat} {d : SD} (h : release m a = some m') (hd : m a = some d) (hr : d.isReadOnly) : m' = m := by
  unfold release at h; rw [hd] at h; dsimp only at h
  rw [if_pos hr] at h; cases h; rfl

/-- the code page after a change of the storage: kept by the only owner, reset to the class's default when the storage is shared -/
def kept (cls : Nat) (d : SD) : Nat := if d.isShared then cls else d.enc

theorem kept_empty (cls : Nat) : kept cls (emptySD cls) = cls := by unfold kept; split <;> rfl

theorem lockBuffer_rk {cls : Nat} {m : Mem} {p cap : Nat} {al : Al} {d : SD} (h0 : m 0 = some (emptySD cls)) (hd : m p = some d) (hf : Fresh m p al) (hs0 : p ≠ 0 → 0 < d.cap) :
    RK (kept cls d) (lockBuffer cls m p cap al) := by
  unfold lockBuffer; rw [hd]; dsimp only
  generalize hc : (if cap < d.size then d.size else cap) = c
  split
  · rename_i h
    by_cases hp : p = 0
    · subst hp; rw [h0] at hd; cases hd
      exact rk_ret ⟨_, h0, (kept_empty cls).symm⟩
    · have := hs0 hp; omega
  · split
    · rename_i hsh
      have hk : kept cls d = cls := by simp [kept, hsh]
      rw [hk]
      split
      · exact rk_bad (by decide) _ _
      · rename_i m1 q hcl
        split
        · exact rk_ub _
        · rename_i m2 hrel
          have key : Has m2 q cls := by
            unfold cloneData at hcl
            dsimp only at hcl
            generalize hn : (if c < d.size then d.size else c) = n at hcl
            split at hcl
            · cases hcl
              by_cases hp : p = 0
              · subst hp
                rw [h0] at hd; cases hd
                rw [release_static hrel h0 rfl]
                exact ⟨_, h0, rfl⟩
              · refine ⟨emptySD cls, ?_, rfl⟩
                rw [release_other hrel (Ne.symm hp)]; exact h0
            · rename_i hnz
              unfold allocData at hcl
              rw [if_neg hnz] at hcl
              cases al with
              | none => cases hcl
              | some qj =>
                obtain ⟨a, junk⟩ := qj
                dsimp only at hcl
                have hu : ∀ x : Option SD, upd m a x a = x := by intro x; simp [upd]
                rw [hu] at hcl; dsimp only at hcl
                cases hcl
                have hqp : q ≠ p := by
                  intro e0
                  rcases (hf q junk rfl).2 with e | ⟨_, d2, e, ns⟩
                  · rw [e0, hd] at e; cases e
                  · rw [hd] at e; cases e; exact ns hsh
                unfold Has
                rw [release_other hrel hqp]
                exact has_upd (by rfl)
          exact doLock_rk key
    · rename_i hsh
      have hk : kept cls d = d.enc := by simp [kept, hsh]
      rw [hk]
      split
      · split
        · exact rk_thr _ _ _
        · split
          · exact rk_bad (by decide) _ _
          · rename_i m1 q hre
            have key : Has m1 q d.enc := by
              unfold reallocData at hre
              split at hre
              · cases hre; exact ⟨d, hd, rfl⟩
              · cases al with
                | none => cases hre
                | some qj => obtain ⟨a, junk⟩ := qj; dsimp only at hre; cases hre; exact has_upd rfl
            exact doLock_rk key
      · exact doLock_rk ⟨d, hd, rfl⟩

theorem clear_rk {cls : Nat} {m : Mem} {p : Nat} {d : SD} (h0 : m 0 = some (emptySD cls)) (hd : m p = some d) :
    ∀ hr m' q, clear m p = .ret hr m' q → hr = .ok ∧ (∀ x, x ≠ p → m' x = m x) ∧ (d.isShared → q = 0) ∧ (¬ d.isShared → q = p ∧ p ≠ 0 ∧ ∃ d', m' p = some d' ∧ d'.enc = d.enc ∧ d'.iRef = d.iRef ∧ d'.cap = d.cap) ∧ m' 0 = some (emptySD cls) := by
  intro hr m' q e
  unfold clear at e; rw [hd] at e; dsimp only at e
  split at e
  · rename_i hs
    split at e
    · cases e
    · rename_i m1 hrel
      cases e
      refine ⟨rfl, fun x hx => release_other hrel hx, fun _ => rfl, fun h => absurd hs h, ?_⟩
      by_cases hp : p = 0
      · subst hp; rw [h0] at hd; cases hd
        rw [release_static hrel h0 rfl]; exact h0
      · rw [release_other hrel (Ne.symm hp)]; exact h0
  · rename_i hs
    unfold wr at e; rw [hd] at e; dsimp only at e
    by_cases hp : p = 0
    · rw [if_pos hp] at e; cases e
    · rw [if_neg hp, if_neg (by omega)] at e
      have hu : ∀ x : Option SD, upd m p x p = x := by intro x; simp [upd]
      dsimp only at e
      rw [hu] at e; dsimp only at e
      cases e
      refine ⟨rfl, fun x hx => by simp [upd, hx], fun h => absurd h hs, fun _ => ⟨rfl, hp, _, upd_self _ _ _, rfl, rfl, rfl⟩, ?_⟩
      simp only [upd]; rw [if_neg (Ne.symm hp), if_neg (Ne.symm hp)]; exact h0

theorem setStr_rk {cls : Nat} {m : Mem} {p : Nat} {src : Ptr} {al : Al} {d : SD} (h0 : m 0 = some (emptySD cls)) (hd : m p = some d) (hf : Fresh m p al) (hs0 : p ≠ 0 → 0 < d.cap) :
    RK (kept cls d) (setStr cls m p src al) := by
  unfold setStr
  have C := clear_rk h0 hd
  generalize clear m p = r at C
  cases r with
  | ub => exact rk_ub _
  | thr m p => exact rk_thr _ _ _
  | ret hr m1 q =>
    dsimp only
    obtain ⟨_, c0, c1, c2, c3⟩ := C hr m1 q rfl
    have key : ∃ d1, m1 q = some d1 ∧ kept cls d1 = kept cls d ∧ Has m1 q (kept cls d) ∧ Fresh m1 q al ∧ (q ≠ 0 → 0 < d1.cap) := by
      by_cases hs : d.isShared
      · have := c1 hs; subst this
        have hk : kept cls d = cls := by simp [kept, hs]
        refine ⟨_, c3, by rw [hk, kept_empty], ⟨_, c3, by rw [hk]; rfl⟩, ?_, fun h => absurd rfl h⟩
        intro a j ea
        refine ⟨(hf a j ea).1, ?_⟩
        rcases (hf a j ea).2 with h | ⟨_, d2, h, ns⟩
        · exact .inl (by rw [c0 a (by rintro rfl; rw [hd] at h; cases h)]; exact h)
        · rw [hd] at h; cases h; exact absurd hs ns
      · obtain ⟨rfl, hp, d1, g1, g2, g3, g4⟩ := c2 hs
        have hk : kept cls d = d.enc := by simp [kept, hs]
        have hs1 : ¬ d1.isShared := by unfold SD.isShared at hs ⊢; rw [g3]; exact hs
        have hk1 : kept cls d1 = d.enc := by simp [kept, hs1, g2]
        refine ⟨d1, g1, by rw [hk, hk1], ⟨d1, g1, by rw [hk, g2]⟩, ?_, fun h => by rw [g4]; exact hs0 h⟩
        intro a j ea
        refine ⟨(hf a j ea).1, ?_⟩
        rcases (hf a j ea).2 with h | ⟨rfl, _⟩
        · exact .inl (by rw [c0 a (by rintro rfl; rw [hd] at h; cases h)]; exact h)
        · exact .inr ⟨rfl, d1, g1, hs1⟩
    obtain ⟨d1, g1, g2, g3, g4, g5⟩ := key
    split
    · exact rk_ret g3
    · have L := lockBuffer_rk (cap := src.len) c3 g1 g4 g5
      rw [g2] at L
      generalize lockBuffer cls m1 q src.len al = r at L
      cases r with
      | ub => exact rk_ub _
      | thr m p => exact rk_thr _ _ _
      | ret hr m2 q2 =>
        cases hr <;> dsimp only
        · split
          · exact rk_ub _
          · rename_i m3 hc
            exact unlockN_rk (copyIn_has (L _ _ rfl) hc)
        all_goals exact rk_bad (by decide) _ _

/-- lock, one change of the buffer, `UnlockBuffer(n)` -/
theorem append_rk {cls : Nat} {m : Mem} {p : Nat} {src : Ptr} {al : Al} {d : SD} (h0 : m 0 = some (emptySD cls)) (hd : m p = some d) (hf : Fresh m p al) (hs0 : p ≠ 0 → 0 < d.cap) :
    RK (if src.len = 0 then d.enc else kept cls d) (append cls m p src al) := by
  unfold append
  split
  · exact rk_ret ⟨d, hd, rfl⟩
  · rw [hd]; dsimp only
    have L := lockBuffer_rk (cap := d.size + src.len) h0 hd hf hs0
    generalize lockBuffer cls m p (d.size + src.len) al = r at L
    cases r with
    | ub => exact rk_ub _
    | thr m p => exact rk_thr _ _ _
    | ret hr m2 q2 =>
      cases hr <;> dsimp only
      · split
        · exact rk_ub _
        · rename_i m3 hc
          exact unlockN_rk (copyIn_has (L _ _ rfl) hc)
      all_goals exact rk_bad (by decide) _ _

theorem appendChar_rk {cls : Nat} {m : Mem} {p c : Nat} {al : Al} {d : SD} (h0 : m 0 = some (emptySD cls)) (hd : m p = some d) (hf : Fresh m p al) (hs0 : p ≠ 0 → 0 < d.cap) :
    RK (kept cls d) (appendChar cls m p c al) := by
  unfold appendChar; rw [hd]; dsimp only
  have L := lockBuffer_rk (cap := d.size + 1) h0 hd hf hs0
  generalize lockBuffer cls m p (d.size + 1) al = r at L
  cases r with
  | ub => exact rk_ub _
  | thr m p => exact rk_thr _ _ _
  | ret hr m2 q2 =>
    cases hr <;> dsimp only
    · split
      · exact rk_ub _
      · rename_i m3 hc
        exact unlockN_rk (wr_has (L _ _ rfl) hc)
    all_goals exact rk_bad (by decide) _ _

theorem setItem_rk {cls : Nat} {m : Mem} {p k c : Nat} {al : Al} {d : SD} (h0 : m 0 = some (emptySD cls)) (hd : m p = some d) (hf : Fresh m p al) (hs0 : p ≠ 0 → 0 < d.cap) :
    RK (kept cls d) (setItem cls m p k c al) := by
  unfold setItem; rw [hd]; dsimp only
  split
  · exact rk_bad (by decide) _ _
  · have L := lockBuffer_rk (cap := 0) h0 hd hf hs0
    generalize lockBuffer cls m p 0 al = r at L
    cases r with
    | ub => exact rk_ub _
    | thr m p => exact rk_thr _ _ _
    | ret hr m2 q2 =>
      cases hr <;> dsimp only
      · split
        · exact rk_ub _
        · rename_i m3 hc
          exact unlock_rk (wr_has (L _ _ rfl) hc)
      all_goals exact rk_bad (by decide) _ _

theorem setEnc_rk {m : Mem} {p e : Nat} {al : Al} {d : SD} (h0 : m 0 = some (emptySD ansi)) (hd : m p = some d) (hf : Fresh m p al) (hs0 : p ≠ 0 → 0 < d.cap) :
    RK e (setEnc ansi m p e al) := by
  unfold setEnc; rw [hd]; dsimp only
  rw [if_neg (by decide : ¬ ansi ≠ ansi)]
  split
  · rename_i h; exact rk_ret ⟨d, hd, h⟩
  · split
    · exact rk_bad (by decide) _ _
    · split
      · exact rk_bad (by decide) _ _
      · have L := lockBuffer_rk (cap := 1) h0 hd hf hs0
        generalize lockBuffer ansi m p 1 al = r at L
        cases r with
        | ub => exact rk_ub _
        | thr m p => exact rk_thr _ _ _
        | ret hr m2 q2 =>
          cases hr <;> dsimp only
          · split
            · exact rk_ub _
            · split
              · exact rk_ub _
              · exact unlock_rk (has_upd rfl)
          all_goals exact rk_bad (by decide) _ _

theorem assign_rk {cls : Nat} {m : Mem} {p a : Nat} {al : Al} {d e : SD} (h0 : m 0 = some (emptySD cls)) (hd : m p = some d) (he : m a = some e) (hf : Fresh m p al) (hs0 : p ≠ 0 → 0 < d.cap) :
    RK (if p = a then d.enc else if e.isLocked then kept cls d else e.enc) (assign cls m p a al) := by
  unfold assign
  split
  · exact rk_ret ⟨d, hd, rfl⟩
  · rename_i hpa
    rw [he]; dsimp only
    split
    · exact setStr_rk h0 hd hf hs0
    · split
      · exact rk_ub _
      · exact rk_thr _ _ _
      · rename_i m1 hm1
        split
        · exact rk_ub _
        · rename_i m2 hm2
          have : Has m1 a e.enc := by
            unfold addRef at hm1; rw [he] at hm1; dsimp only at hm1
            split at hm1
            · cases hm1; exact ⟨e, he, rfl⟩
            · split at hm1
              · cases hm1
              · cases hm1; exact has_upd rfl
          unfold Has at this
          rw [← release_other hm2 (Ne.symm hpa)] at this
          exact rk_ret this

theorem appendS_rk {cls : Nat} {m : Mem} {p a : Nat} {al : Al} {d e : SD} (h0 : m 0 = some (emptySD cls)) (hd : m p = some d) (he : m a = some e) (hf : Fresh m p al) (hs0 : p ≠ 0 → 0 < d.cap) :
    RK (if e.size = 0 then d.enc else if d.size = 0 then (if p = a then d.enc else if e.isLocked then kept cls d else e.enc) else kept cls d) (appendS cls m p a al) := by
  unfold appendS; rw [hd, he]; dsimp only
  split
  · exact rk_ret ⟨d, hd, rfl⟩
  · rename_i hz
    split
    · exact assign_rk h0 hd he hf hs0
    · have := append_rk (src := .inn a 0 e.size) h0 hd hf hs0
      simp only [Ptr.len, hz, if_false] at this
      exact this

theorem onHandle_rk {s s' : St} {i p e : Nat} {f : Mem → Nat → Res} (hp : s.hs[i]? = some (some p)) (h : RK e (f s.mem p)) (hs : onHandle s i f = .ret .ok s') :
    ∃ d', blk s' i = some d' ∧ d'.enc = e := by
  unfold onHandle at hs; rw [hp] at hs; dsimp only at hs
  split at hs
  · cases hs
  · cases hs
  · rename_i hr m q hq
    cases hs
    obtain ⟨d', g1, g2⟩ := h _ _ hq
    have lt : i < s.hs.length := by
      rcases Nat.lt_or_ge i s.hs.length with h | h
      · exact h
      · rw [List.getElem?_eq_none h] at hp; cases hp
    refine ⟨d', ?_, g2⟩
    unfold blk; simp [lt, g1]

/-! ### the property -/

/-- the code page of handle `i` (before: `d`, after: `d'`) is kept if no other handle shares the storage, and reset to the default if one does -/
def CpKept (s : St) (i : Nat) (d d' : SD) : Prop := (¬ SharedWith s i → d'.enc = d.enc) ∧ (SharedWith s i → d'.enc = ansi)

/-- the code page after taking over the string `j`: that string's, unless its buffer is locked -/
def CpOf (s : St) (i j : Nat) (d d' e : SD) : Prop := (¬ e.isLocked ∨ i = j → d'.enc = e.enc) ∧ (e.isLocked → i ≠ j → CpKept s i d d')

/-- the numbers that stand for Unicode encodings: UTF-8, UTF-16 and UTF-32 in both byte orders -/
def unicodePages : List Nat := [65001, 1200, 1201, 12000, 12001]

theorem isUnicode_iff (e : Nat) : isUnicode e = true ↔ e ∈ unicodePages := by simp [isUnicode, unicodePages, or_assoc]

/-- C99: `SetANSIEncoding` refuses exactly the Unicode encodings, without changing anything. -/
theorem C99_refused {s : St} {i p e : Nat} {d : SD} {al : Al} (hp : s.hs[i]? = some (some p)) (hm : s.mem p = some d) (hne : d.enc ≠ e) :
    setEnc ansi s.mem p e al = .ret .invalidArg s.mem p ↔ e ∈ unicodePages := by
  unfold setEnc
  rw [hm]; dsimp only
  rw [if_neg (by simpa using hne), if_neg (by simp)]
  by_cases h : isUnicode e = true
  · rw [if_pos h]; exact ⟨fun _ => (isUnicode_iff e).1 h, fun _ => rfl⟩
  · rw [if_neg h]
    refine ⟨fun hh => ?_, fun hh => absurd ((isUnicode_iff e).2 hh) h⟩
    exfalso; revert hh
    cases lockBuffer ansi s.mem p 1 al with
    | ub => intro h; cases h
    | thr m q => intro h; cases h
    | ret hr m q =>
      cases hr with
      | ok =>
        dsimp only
        cases m q with
        | none => intro h; cases h
        | some d =>
          dsimp only
          split
          · intro h; cases h
          · unfold unlock doUnlock
            repeat' (first | split | (intro h; cases h))
      | _ => intro h; cases h

/-- what each member function of an ANSI string does to the code page when it succeeds -/
def CodePage (s : St) (i : Nat) (d d' : SD) : Op → Prop
  | .clear _ | .setStr _ _ _ | .appendChar _ _ _ | .setItem _ _ _ _ | .lock _ _ _ => CpKept s i d d'
  | .append _ src _ => (srcText s src = [] → d'.enc = d.enc) ∧ (srcText s src ≠ [] → CpKept s i d d')
  | .assign _ j _ => ∀ e, blk s j = some e → CpOf s i j d d' e
  | .appendS _ j _ => ∀ e, blk s j = some e → (e.text = [] → d'.enc = d.enc) ∧ (e.text ≠ [] → d.text = [] → CpOf s i j d d' e) ∧ (e.text ≠ [] → d.text ≠ [] → CpKept s i d d')
  | .setEnc _ e _ => d'.enc = e
  | .remove _ _ _ _ => (¬ SharedWith s i → d'.enc = d.enc) ∧ (d.enc ∉ unicodePages → d'.text ≠ [] → d'.enc = d.enc)
  | _ => d'.enc = d.enc

theorem cpKept_of {s : St} {i p : Nat} {d d' : SD} (hp : s.hs[i]? = some (some p)) (hm : s.mem p = some d) (w : WF ansi s.mem (plus (cnt (s.hs.set i none)) p)) (h : d'.enc = kept ansi d) : CpKept s i d d' := by
  by_cases p0 : p = 0
  · subst p0
    rw [w.zero] at hm; cases hm
    rw [kept_empty] at h
    exact ⟨fun _ => h, fun _ => h⟩
  · have := sharedWith_iff hp hm p0 w
    unfold kept at h
    exact ⟨fun hh => by rw [h, if_neg (fun x => hh (this.2 x))], fun hh => by rw [h, if_pos (this.1 hh)]⟩

theorem cpOf_of {s : St} {i j p a : Nat} {d e d' : SD} (inv : Inv ansi s) (hp : s.hs[i]? = some (some p)) (hm : s.mem p = some d) (w : WF ansi s.mem (plus (cnt (s.hs.set i none)) p))
    (hj : s.hs[j]? = some (some a)) (he : s.mem a = some e) (h : d'.enc = if p = a then d.enc else if e.isLocked then kept ansi d else e.enc) : CpOf s i j d d' e := by
  by_cases hpa : p = a
  · subst hpa
    rw [hm] at he; cases he
    rw [if_pos rfl] at h
    refine ⟨fun _ => h, fun hl hij => ?_⟩
    exfalso
    by_cases p0 : p = 0
    · subst p0; rw [w.zero] at hm; cases hm; simp [SD.isLocked, emptySD, imax] at hl
    · have := (sharedWith_iff hp hm p0 w).1 ⟨j, Ne.symm hij, p, hp, hj⟩
      unfold SD.isShared at this; unfold SD.isLocked at hl; omega
  · rw [if_neg hpa] at h
    refine ⟨fun x => ?_, fun hl _ => cpKept_of hp hm w (by rw [h, if_pos hl])⟩
    rcases x with x | x
    · rw [h, if_neg x]
    · subst x; rw [hp] at hj; cases hj; exact absurd rfl hpa

/-- **C99, the code page of an ANSI string.** For every history of valid operations and every member function that succeeds: a string that does not share its storage keeps its code page, takes the source's with an
assignment and the given one with `SetANSIEncoding`; a string whose storage is shared is silently reset to the default code page by every other change than `Remove`. -/
theorem C99_codepage {ops s op i d s'} (r : Run ansi (init ansi) ops s) (hv : Valid s op) (hf : Few s) (hi : op.self? = some i) (hd : blk s i = some d) (hs : step ansi s op = .ret .ok s') :
    ∃ d', blk s' i = some d' ∧ CodePage s i d d' op := by
  have inv := run_inv r (inv_init ansi)
  have hl : Live s i := by
    unfold blk at hd
    split at hd
    · rename_i a ha; exact ⟨a, ha⟩
    · cases hd
  obtain ⟨p, d0, hp, hm, hb, w⟩ := handle_facts inv hl
  rw [hd] at hb; cases hb
  have h0 := w.zero
  have hs0 : p ≠ 0 → 0 < d.cap := fun h => (w.blk p d h hm).1.2
  have K : ∀ {d' : SD}, d'.enc = kept ansi d → CpKept s i d d' := fun h => cpKept_of hp hm w h
  have fin : ∀ {e : Nat} {P : SD → Prop}, (∃ d', blk s' i = some d' ∧ d'.enc = e) → (∀ d', d'.enc = e → P d') → ∃ d', blk s' i = some d' ∧ P d' :=
    fun ⟨d', a, b⟩ h => ⟨d', a, h d' b⟩
  have src : ∀ {j e}, blk s j = some e → ∃ a, s.hs[j]? = some (some a) ∧ s.mem a = some e := by
    intro j e h
    unfold blk at h
    split at h
    · rename_i a ha; exact ⟨a, ha, h⟩
    · cases h
  cases op with
  | new => cases hi
  | copy => cases hi
  | move => cases hi
  | del => cases hi
  | moveAssign => cases hi
  | clear i' =>
    cases hi
    refine fin (onHandle_rk (e := kept ansi d) hp ?_ hs) (fun d' h => K h)
    intro m q e
    obtain ⟨_, _, c1, c2, c3⟩ := clear_rk h0 hm _ _ _ e
    by_cases hsh : d.isShared
    · rw [c1 hsh]; exact ⟨_, c3, by simp [kept, hsh, emptySD]⟩
    · obtain ⟨rfl, _, d1, g1, g2, _⟩ := c2 hsh
      exact ⟨d1, g1, by simp [kept, hsh, g2]⟩
  | setStr i' src al =>
    cases hi
    obtain ⟨_, ha, hsv⟩ := hv
    obtain ⟨ptr, e, so, ch⟩ := src_facts inv hsv
    simp only [step] at hs
    rw [onHandleP_eq e] at hs
    exact fin (onHandle_rk (f := fun m p => setStr ansi m p ptr al) hp (setStr_rk h0 hm (fresh_of hp hm w ha) hs0) hs) (fun d' h => K h)
  | setNull i' => cases hi; exact fin (onHandle_rk (e := d.enc) hp (rk_bad (by decide) _ _) hs) (fun d' h => h)
  | assign i' j al =>
    cases hi
    obtain ⟨_, ⟨a, hj⟩, ha⟩ := hv
    obtain ⟨e, he⟩ : ∃ e, s.mem a = some e := inv.live (cnt_pos hj)
    simp only [step] at hs
    rw [onHandle2_eq hj] at hs
    refine fin (onHandle_rk (f := fun m p => assign ansi m p a al) hp (assign_rk h0 hm he (fresh_of hp hm w ha) hs0) hs) (fun d' h => ?_)
    intro e' be
    have : e' = e := by unfold blk at be; rw [hj] at be; dsimp only at be; rw [he] at be; cases be; rfl
    subst this
    exact cpOf_of inv hp hm w hj he h
  | append i' src al =>
    cases hi
    obtain ⟨_, ha, hsv⟩ := hv
    obtain ⟨ptr, e, so, ch⟩ := src_facts inv hsv
    simp only [step] at hs
    rw [onHandleP_eq e] at hs
    have len : (srcText s src).length = ptr.len := by rw [← ch, chars_length]
    refine fin (onHandle_rk (f := fun m p => append ansi m p ptr al) hp (append_rk h0 hm (fresh_of hp hm w ha) hs0) hs) (fun d' h => ⟨fun hz => ?_, fun hz => K ?_⟩)
    · rw [h, if_pos (by rw [← len, hz]; rfl)]
    · rw [h, if_neg (by rw [← len]; exact fun x => hz (List.length_eq_zero_iff.1 x))]
  | appendS i' j al =>
    cases hi
    obtain ⟨_, ⟨a, hj⟩, ha, _⟩ := hv
    obtain ⟨e, he⟩ : ∃ e, s.mem a = some e := inv.live (cnt_pos hj)
    simp only [step] at hs
    rw [onHandle2_eq hj] at hs
    refine fin (onHandle_rk (f := fun m p => appendS ansi m p a al) hp (appendS_rk h0 hm he (fresh_of hp hm w ha) hs0) hs) (fun d' h => ?_)
    intro e' be
    have : e' = e := by unfold blk at be; rw [hj] at be; dsimp only at be; rw [he] at be; cases be; rfl
    subst this
    refine ⟨fun z => ?_, fun z y => cpOf_of inv hp hm w hj he ?_, fun z y => K ?_⟩
    · rw [h, if_pos (text_empty.1 z)]
    · rw [h, if_neg (fun x => z (text_empty.2 x)), if_pos (text_empty.1 y)]
    · rw [h, if_neg (fun x => z (text_empty.2 x)), if_neg (fun x => y (text_empty.2 x))]
  | appendChar i' c al => cases hi; exact fin (onHandle_rk (f := fun m p => appendChar ansi m p c al) hp (appendChar_rk h0 hm (fresh_of hp hm w hv.2) hs0) hs) (fun d' h => K h)
  | setItem i' k c al => cases hi; exact fin (onHandle_rk (f := fun m p => setItem ansi m p k c al) hp (setItem_rk h0 hm (fresh_of hp hm w hv.2) hs0) hs) (fun d' h => K h)
  | setEnc i' e al => cases hi; exact fin (onHandle_rk (f := fun m p => setEnc ansi m p e al) hp (setEnc_rk h0 hm (fresh_of hp hm w hv.2) hs0) hs) (fun d' h => h)
  | remove i' a n al =>
    cases hi
    obtain ⟨_, ha, hal⟩ := hv
    have hal' : d.isShared → p ≠ 0 → al ≠ none := fun hsh p0 e => hal ((sharedWith_iff hp hm p0 w).2 hsh) e
    have A := onHandle_ok (f := fun m p => remove ansi m p a n al) hp (remove_ok (s := a) (c := n) w (fun q => few_bd hf i p q) hm (fresh_of hp hm w ha) hal')
    simp only [step] at hs
    rw [hs] at A
    obtain ⟨_, _, d', g1, _, _, _, g2, _⟩ := A
    refine ⟨d', g1, fun ns => ?_, fun hu => g2.2 rfl (by cases hh : isUnicode d.enc with | false => rfl | true => exact absurd ((isUnicode_iff _).1 hh) hu)⟩
    by_cases p0 : p = 0
    · subst p0; rw [h0] at hm; cases hm
      have e : onHandle s i (fun m p => remove ansi m p a n al) = .ret .ok ⟨s.mem, s.hs.set i (some 0)⟩ := by
        unfold onHandle; rw [hp]; dsimp only; unfold remove; rw [h0]; simp [emptySD]
      rw [e] at hs; cases hs
      have lt : i < s.hs.length := by
        rcases Nat.lt_or_ge i s.hs.length with h | h
        · exact h
        · rw [List.getElem?_eq_none h] at hp; cases hp
      unfold blk at g1; simp [lt, h0] at g1; rw [← g1]
    · exact g2.1 (fun x => ns ((sharedWith_iff hp hm p0 w).2 x))
  | lock i' cap al => cases hi; exact fin (onHandle_rk (f := fun m p => lockBuffer ansi m p cap al) hp (lockBuffer_rk h0 hm (fresh_of hp hm w hv.2) hs0) hs) (fun d' h => K h)
  | write i' k c =>
    cases hi
    refine fin (onHandle_rk (e := d.enc) (f := fun m p => write m p k c) hp ?_ hs) (fun d' h => h)
    unfold write
    split
    · exact rk_ub _
    · rename_i m1 h1; exact rk_ret (wr_has ⟨d, hm, rfl⟩ h1)
  | unlockN i' n => cases hi; exact fin (onHandle_rk (f := fun m p => unlockN m p n) hp (unlockN_rk ⟨d, hm, rfl⟩) hs) (fun d' h => h)
  | unlock i' => cases hi; exact fin (onHandle_rk (f := unlock) hp (unlock_rk ⟨d, hm, rfl⟩) hs) (fun d' h => h)

/-- **C99, copies.** A copy has the code page of its source, unless the source's buffer is locked: then the bytes are copied and the code page is not. -/
theorem C99_copy {ops s j al s'} (r : Run ansi (init ansi) ops s) (hv : Valid s (.copy j al)) (hs : step ansi s (.copy j al) = .ret .ok s') :
    ∃ e d', blk s j = some e ∧ blk s' s.hs.length = some d' ∧ (¬ e.isLocked → d'.enc = e.enc) ∧ (e.isLocked → d'.enc = ansi) := by
  have inv := run_inv r (inv_init ansi)
  obtain ⟨⟨a, hj⟩, hal⟩ := hv
  obtain ⟨e, he⟩ : ∃ e, s.mem a = some e := inv.live (cnt_pos hj)
  have hb : blk s j = some e := by unfold blk; rw [hj]; exact he
  have h0 : s.mem 0 = some (emptySD ansi) := inv.zero
  simp only [step, hj, he] at hs
  split at hs
  · rename_i hl
    have S := setStr_rk (src := .inn a 0 e.size) (al := al) h0 h0 (fun q x ex => ⟨(hal q x ex).1, .inl (hal q x ex).2⟩) (fun h => absurd rfl h)
    rw [kept_empty] at S
    split at hs
    · rename_i m p hq
      cases hs
      obtain ⟨d', g1, g2⟩ := S _ _ hq
      exact ⟨e, d', hb, by unfold blk; simp [g1], fun h => absurd hl h, fun _ => g2⟩
    all_goals cases hs
  · rename_i hl
    split at hs
    · cases hs
    · cases hs
    · rename_i m1 hm1
      cases hs
      have : Has m1 a e.enc := by
        unfold addRef at hm1; rw [he] at hm1; dsimp only at hm1
        split at hm1
        · cases hm1; exact ⟨e, he, rfl⟩
        · split at hm1
          · cases hm1
          · cases hm1; exact has_upd rfl
      obtain ⟨d', g1, g2⟩ := this
      exact ⟨e, d', hb, by unfold blk; simp [g1], fun _ => g2, fun h => absurd h hl⟩

/-- **C99 fails** for every change of a string that shares its storage with another one: the text is right, the code page is not the one the bytes are in. -/
theorem C99_shared_fails {ops s i c al d s'} (r : Run ansi (init ansi) ops s) (hv : Valid s (.appendChar i c al)) (hf : Few s) (hd : blk s i = some d) (hsh : SharedWith s i) (he : d.enc ≠ ansi)
    (hs : step ansi s (.appendChar i c al) = .ret .ok s') : ∃ d', blk s' i = some d' ∧ d'.text = d.text ++ [c] ∧ d'.enc ≠ d.enc := by
  obtain ⟨d', g1, g2⟩ := C99_codepage r hv hf rfl hd hs
  have A := member_step (run_inv r (inv_init ansi)) hf hv rfl hd
  rw [hs] at A
  obtain ⟨_, _, d2, h1, h2, _⟩ := A
  rw [g1] at h1; cases h1
  refine ⟨d', g1, ?_, fun h => he (h ▸ g2.2 hsh)⟩
  rcases h2 (by simp [Exposed]) with ⟨_, h⟩ | ⟨h, _⟩ | ⟨h, _⟩
  · exact h
  · cases h
  · cases h

/-- **C99 fails** for the assignment of a locked string: bytes of code page 936 end up labelled 932, the old label of the target. -/
theorem C99_locked_fails : ∃ s, Run 0 (init 0) [.new, .setStr 0 (.ext [0xC4, 0xE3]) (at_ 1), .setEnc 0 936 none, .lock 0 0 none, .new, .setStr 1 (.ext [0x41]) (at_ 2), .setEnc 1 932 none, .assign 1 0 none] s ∧
    (seen s 0).map Seen.enc = some 936 ∧ (seen s 1).map Seen.enc = some 932 ∧ (seen s 1).map Seen.text = some [0xC4, 0xE3] := by
  obtain ⟨s, r, h⟩ := witness (cls := 0) (ops := [.new, .setStr 0 (.ext [0xC4, 0xE3]) (at_ 1), .setEnc 0 936 none, .lock 0 0 none, .new, .setStr 1 (.ext [0x41]) (at_ 2), .setEnc 1 932 none, .assign 1 0 none])
    (fun s => decide ((seen s 0).map Seen.enc = some 936 ∧ (seen s 1).map Seen.enc = some 932 ∧ (seen s 1).map Seen.text = some [0xC4, 0xE3])) (by decide +kernel)
  exact ⟨s, r, of_decide_eq_true h⟩

/-- The constructor from a view (String.h 194-205: `SetString`, `SetANSIEncoding`), an append to it, a copy and a `Remove` on the copy, which shares the storage: all have code page 936. -/
theorem C99_example : ∃ s, Run 0 (init 0) [.new, .setStr 0 (.ext [0xC4, 0xE3]) (at_ 1), .setEnc 0 936 none, .appendChar 0 0x41 none, .copy 0 none, .remove 1 2 1 (at_ 2)] s ∧
    seen s 0 = some ⟨[0xC4, 0xE3, 0x41], 936, 15, 0, 1⟩ ∧ seen s 1 = some ⟨[0xC4, 0xE3], 936, 15, 0, 1⟩ := by
  obtain ⟨s, r, h⟩ := witness (cls := 0) (ops := [.new, .setStr 0 (.ext [0xC4, 0xE3]) (at_ 1), .setEnc 0 936 none, .appendChar 0 0x41 none, .copy 0 none, .remove 1 2 1 (at_ 2)])
    (fun s => decide (seen s 0 = some ⟨[0xC4, 0xE3, 0x41], 936, 15, 0, 1⟩ ∧ seen s 1 = some ⟨[0xC4, 0xE3], 936, 15, 0, 1⟩)) (by decide +kernel)
  exact ⟨s, r, of_decide_eq_true h⟩

end Verif.StrHeap
