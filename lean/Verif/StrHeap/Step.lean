import Verif.StrHeap.World

/-! One step of the program: safety, independence of the other handles, and the effect on the handle the
operation was called on. -/

namespace Verif.StrHeap

/-- What the operation is meant to do to the text of the handle it is called on, as if the string were not
shared: `d` is the string before, `d'` after, `src` the source text, `r` the result (`none` = exception).
Running out of memory is possible only when the allocator failed, an exception only when the buffer was
locked by the user and had to grow (or was not locked at all, for `UnlockBuffer`). -/
def Effect (d d' : SD) (src : List Nat) (r : Option Hr) : Op → Prop
  | .clear _ => r = some .ok ∧ d'.text = []
  | .setStr _ _ al | .assign _ _ al =>
    (r = some .ok ∧ d'.text = src) ∨ (r = some .oom ∧ al = none ∧ d'.text = []) ∨
    (r = none ∧ d.isLocked ∧ d.cap < src.length ∧ d'.text = [])
  | .setNull _ => r = some .invalidArg ∧ d'.text = d.text
  | .append _ _ al =>
    (r = some .ok ∧ d'.text = d.text ++ src) ∨ (r = some .oom ∧ al = none ∧ d'.text = d.text) ∨
    (r = none ∧ d.isLocked ∧ d.cap < d.text.length + src.length ∧ d'.text = d.text)
  | .appendS _ _ al =>
    (r = some .ok ∧ d'.text = d.text ++ src) ∨ (r = some .oom ∧ al = none ∧ d'.text = d.text) ∨
    (r = none ∧ d.isLocked ∧ d.cap < d.text.length + src.length ∧ d'.text = d.text)
  | .appendChar _ c al =>
    (r = some .ok ∧ d'.text = d.text ++ [c]) ∨ (r = some .oom ∧ al = none ∧ d'.text = d.text) ∨
    (r = none ∧ d.isLocked ∧ d.cap < d.text.length + 1 ∧ d'.text = d.text)
  | .setItem _ k c al =>
    (r = some .bounds ∧ d.text.length ≤ k ∧ d'.text = d.text) ∨
    (r = some .ok ∧ k < d.text.length ∧ d'.text = d.text.set k c) ∨ (r = some .oom ∧ al = none ∧ d'.text = d.text)
  | .setEnc _ e _ => d'.text = d.text ∧ (r = some .ok ∧ d'.enc ≠ d.enc → d'.enc = e) ∧ (r ≠ some .ok → d'.enc = d.enc)
  | .remove _ s c _ => r = some .ok ∧ d'.text = d.text.take s ++ d.text.drop (s + c)
  | .lock _ cap al =>
    d'.text = d.text ∧
    ((r = some .ok ∧ cap ≤ d'.cap) ∨ (r = some .oom ∧ al = none) ∨ (r = none ∧ d.isLocked ∧ d.cap < cap))
  | .write _ k c => r = some .ok ∧ d'.text = d.text.set k c ∧ ∀ j, d'.buf j = if j = k then c else d.buf j
  | .unlockN _ n =>
    (r = some .ok ∧ d'.text = (List.range (min n d.cap)).map d.buf) ∨ (r = none ∧ ¬ d.isLocked ∧ d'.text = d.text)
  | .unlock _ => d'.text = d.text ∧ (r = some .ok ∨ (r = none ∧ ¬ d.isLocked))
  | _ => True

/-- The cases in which `LockBuffer`'s clone of a shared block (which forgets `uSize`) is exposed:
`SetItem`, `SetANSIEncoding` and the user's own `LockBuffer` on a non-empty shared string. -/
def Exposed (s : St) (d : SD) : Op → Prop
  | .setItem i _ _ _ | .setEnc i _ _ | .lock i _ _ => SharedWith s i ∧ 0 < d.size
  | _ => False

/-- block `d` is zero-terminated unless locked -/
def Tm (d : SD) : Prop := 0 < d.iRef → d.buf d.size = 0

/-- the user has left (or restored) the terminator before calling `UnlockBuffer()` -/
def Tidy (d : SD) : Op → Prop
  | .unlock _ => d.buf d.size = 0
  | _ => True

/-- the handle on which a member function is called -/
def Op.self? : Op → Option Nat
  | .clear i | .setStr i _ _ | .setNull i | .assign i _ _ | .append i _ _ | .appendS i _ _ | .appendChar i _ _
  | .setItem i _ _ _ | .setEnc i _ _ | .remove i _ _ _ | .lock i _ _ | .write i _ _ | .unlockN i _ | .unlock i => some i
  | _ => none

/-- the source text of an operation -/
def Op.src (s : St) : Op → List Nat
  | .setStr _ src _ | .append _ src _ => srcText s src
  | .assign _ j _ | .appendS _ j _ => match blk s j with
    | some e => e.text
    | none => []
  | _ => []

theorem sl_tm {d d' : SD} (h : SameLock d d') (hp : 0 < d'.iRef) : 0 ≤ d.iRef := by
  unfold SameLock at h; split at h <;> omega

theorem chars_length (m : Mem) (p : Ptr) : (p.chars m).length = p.len := by simp [Ptr.chars]

/-- a member function call -/
theorem member_step {cls s op i d} (inv : Inv cls s) (few : Few s) (hv : Valid s op) (hi : op.self? = some i)
    (hd : blk s i = some d) :
    WPost cls s i (step cls s op)
      (fun hr d' => (¬ Exposed s d op → Effect d d' (op.src s) (some hr) op) ∧
        ((∀ k e, blk s k = some e → Tm e) → ¬ Exposed s d op → Tidy d op → Tm d'))
      (fun d' => (¬ Exposed s d op → Effect d d' (op.src s) none op) ∧ ((∀ k e, blk s k = some e → Tm e) → Tm d')) := by
  have hl : Live s i := by
    unfold blk at hd
    split at hd
    · rename_i a ha; exact ⟨a, ha⟩
    · cases hd
  obtain ⟨p, d0, hp, hm, hb, w⟩ := handle_facts inv hl
  rw [hd] at hb; cases hb
  have bd := few_bd0 few i
  have bd2 := fun q => few_bd few i p q
  cases op with
  | new => cases hi
  | copy => cases hi
  | move => cases hi
  | del => cases hi
  | moveAssign => cases hi
  | clear i' =>
    cases hi
    simp only [step]
    refine onHandle_ok hp ?_
    obtain ⟨m1, p1, d1, e1, L1, g1, s1, b1, _⟩ := clear_ok w bd hm
    rw [e1]
    exact ⟨L1, d1, g1, fun _ => ⟨rfl, text_empty.2 s1⟩, fun _ _ _ _ => by rw [s1]; exact b1⟩
  | setStr i' src al =>
    cases hi
    obtain ⟨_, ha, hs⟩ := hv
    obtain ⟨ptr, e, so, ch⟩ := src_facts inv hs
    simp only [step]
    rw [onHandleP_eq e]
    refine WPost.mono (onHandle_ok hp (setStr_ok w bd hm (fresh_of hp hm w ha) so)) ?_ ?_
    · rintro hr d' ⟨x1, x2, _, x3⟩
      rw [ch] at x3
      refine ⟨fun _ => ?_, fun _ _ _ _ => x1⟩
      rcases x3 with ⟨rfl, h⟩ | ⟨rfl, h1, h2⟩
      · exact .inl ⟨rfl, h⟩
      · exact .inr (.inl ⟨rfl, h1, h2⟩)
    · rintro d' ⟨x1, x2, x3, x4, x5⟩
      refine ⟨fun _ => .inr (.inr ⟨rfl, x1, ?_, x4⟩), fun _ _ => x5⟩
      simp only [Op.src]; rw [← ch, chars_length]; exact x2
  | setNull i' =>
    cases hi
    simp only [step]
    refine onHandle_ok hp ?_
    exact ⟨Loc.refl w, d, hm, fun _ => ⟨rfl, rfl⟩, fun ht _ _ => ht _ _ hd⟩
  | assign i' j al =>
    cases hi
    obtain ⟨_, ⟨a, hj⟩, ha⟩ := hv
    have hbj : ∃ e, s.mem a = some e := inv.live (cnt_pos hj)
    obtain ⟨e, he⟩ := hbj
    have hbj : blk s j = some e := by unfold blk; rw [hj]; exact he
    simp only [step]
    rw [onHandle2_eq hj]
    have hoa : p = a ∨ 0 < cnt (s.hs.set i none) a := by
      by_cases e : j = i
      · subst e; rw [hp] at hj; cases hj; exact .inl rfl
      · exact .inr (oth_pos e hj)
    have hes := inv.size_le he
    refine WPost.mono (onHandle_ok hp (assign_ok w bd2 hm (fresh_of hp hm w ha) hoa he)) ?_ ?_
    · intro hr d' hh
      simp only [Op.src]; rw [hbj]; dsimp only
      rcases hh with ⟨rfl, rfl, rfl⟩ | ⟨x1, rfl, x2, x3, x4, x5, x6⟩ | ⟨x1, x2, x3, x4⟩
      · rw [hm] at he; cases he
        exact ⟨fun _ => .inl ⟨rfl, rfl⟩, fun ht _ _ => ht _ _ hd⟩
      · refine ⟨fun _ => .inl ⟨rfl, x2⟩, fun ht _ _ _ => ?_⟩
        rw [x5, x6]
        refine ht _ _ hbj ?_
        have hk : e.iRef ≠ 0 := by
          by_cases ha0 : a = 0
          · subst ha0; have := inv.zero_eq he; subst this; simp [emptySD, imax]
          · have := inv.blk a e ha0 he; omega
        unfold SD.isLocked at x1; omega
      · refine ⟨fun _ => ?_, fun _ _ _ _ => x3⟩
        rcases x4 with ⟨rfl, h⟩ | ⟨rfl, h1, h2⟩
        · exact .inl ⟨rfl, h⟩
        · exact .inr (.inl ⟨rfl, h1, h2⟩)
    · rintro d' ⟨x1, x2, x3, x4, x5, x6⟩
      simp only [Op.src]; rw [hbj]; dsimp only
      exact ⟨fun _ => .inr (.inr ⟨rfl, x2, by rw [text_length]; exact x3, x5⟩), fun _ _ => x6⟩
  | append i' src al =>
    cases hi
    obtain ⟨_, ha, hs⟩ := hv
    obtain ⟨ptr, e, so, ch⟩ := src_facts inv hs
    simp only [step]
    rw [onHandleP_eq e]
    refine WPost.mono (onHandle_ok hp (append_ok w bd hm (fresh_of hp hm w ha) so)) ?_ ?_
    · rintro hr d' ⟨x1, x2, _, x3⟩
      rw [ch] at x3
      refine ⟨fun _ => ?_, fun ht _ _ hi => ?_⟩
      · rcases x3 with ⟨rfl, h⟩ | ⟨rfl, h1, h2⟩
        · exact .inl ⟨rfl, h⟩
        · exact .inr (.inl ⟨rfl, h1, by rw [h2]⟩)
      · rcases x3 with ⟨rfl, h⟩ | ⟨rfl, h1, h2⟩
        · by_cases hz : 0 < ptr.len
          · exact x2 (.inr hz) rfl
          · have := sl_tm x1 hi
            refine x2 (.inl (ht _ _ hd ?_)) rfl
            have hk : d.iRef ≠ 0 := by
              by_cases ha0 : p = 0
              · subst ha0; have := inv.zero_eq hm; subst this; simp [emptySD, imax]
              · have := inv.blk p d ha0 hm; omega
            omega
        · rw [h2]; rw [h2] at hi; exact ht _ _ hd hi
    · rintro d' ⟨x1, x2, x3⟩
      refine ⟨fun _ => .inr (.inr ⟨rfl, x1, ?_, by rw [x3]⟩), fun ht => by rw [x3]; exact ht _ _ hd⟩
      simp only [Op.src]; rw [← ch, chars_length, text_length]; exact x2
  | appendS i' j al =>
    cases hi
    obtain ⟨_, ⟨a, hj⟩, ha, hown⟩ := hv
    obtain ⟨e, he⟩ := inv.live (cnt_pos hj)
    have hbj : blk s j = some e := by unfold blk; rw [hj]; exact he
    have hes := inv.size_le he
    have hk0 : ∀ x y, s.mem x = some y → 0 < cnt s.hs x → y.iRef ≠ 0 := by
      intro x y hy _
      by_cases ha0 : x = 0
      · subst ha0; have := inv.zero_eq hy; subst this; simp [emptySD, imax]
      · have := inv.blk x y ha0 hy; omega
    simp only [step]
    rw [onHandle2_eq hj]
    have hoa : 0 < cnt (s.hs.set i none) a := by
      by_cases ej : j = i
      · subst ej
        obtain ⟨k, hk, a', ha', hka⟩ := hown rfl
        rw [hj] at ha'; cases ha'
        exact oth_pos hk hka
      · exact oth_pos ej hj
    by_cases hz : e.size = 0
    · have et : e.text = [] := text_empty.2 hz
      refine WPost.mono (onHandle_ok (Q := fun hr d' => hr = .ok ∧ d' = d) (T := fun _ => False) hp ?_) ?_ (fun _ h => h.elim)
      · unfold appendS; rw [he, hm]; dsimp only; rw [if_pos hz]; exact ⟨Loc.refl w, d, hm, rfl, rfl⟩
      · rintro hr d' ⟨rfl, rfl⟩
        simp only [Op.src]; rw [hbj]; dsimp only
        exact ⟨fun _ => .inl ⟨rfl, by rw [et]; simp⟩, fun ht _ _ => ht _ _ hd⟩
    · by_cases hz' : d.size = 0
      · have dt : d.text = [] := text_empty.2 hz'
        have := onHandle_ok (f := fun m p => assign cls m p a al) hp (assign_ok (al := al) w bd2 hm (fresh_of hp hm w ha) (.inr hoa) he)
        have eq : onHandle s i (fun m p => appendS cls m p a al) = onHandle s i (fun m p => assign cls m p a al) := by
          unfold onHandle; rw [hp]; dsimp only
          have : appendS cls s.mem p a al = assign cls s.mem p a al := by
            unfold appendS; rw [he, hm]; dsimp only; rw [if_neg hz, if_pos hz']
          rw [this]
        rw [eq]
        refine WPost.mono this ?_ ?_
        · intro hr d' hh
          simp only [Op.src]; rw [hbj]; dsimp only
          rcases hh with ⟨rfl, rfl, rfl⟩ | ⟨x1, rfl, x2, x3, x4, x5, x6⟩ | ⟨x1, x2, x3, x4⟩
          · rw [hm] at he; cases he; exact absurd hz' hz
          · refine ⟨fun _ => .inl ⟨rfl, by rw [x2, dt]; rfl⟩, fun ht _ _ _ => ?_⟩
            rw [x5, x6]
            refine ht _ _ hbj ?_
            have := hk0 a e he (cnt_pos hj)
            unfold SD.isLocked at x1; omega
          · refine ⟨fun _ => ?_, fun _ _ _ _ => x3⟩
            rcases x4 with ⟨rfl, h⟩ | ⟨rfl, h1, h2⟩
            · exact .inl ⟨rfl, by rw [h, dt]; rfl⟩
            · exact .inr (.inl ⟨rfl, h1, by rw [h2, dt]⟩)
        · rintro d' ⟨x1, x2, x3, x4, x5, x6⟩
          simp only [Op.src]; rw [hbj]; dsimp only
          exact ⟨fun _ => .inr (.inr ⟨rfl, x2, by rw [text_length, text_length]; omega, by rw [x5, dt]⟩), fun _ _ => x6⟩
      · have so : SrcOk (cnt (s.hs.set i none)) s.mem (.inn a 0 e.size) := .inr ⟨hoa, e, he, by omega⟩
        have ch : (Ptr.inn a 0 e.size).chars s.mem = e.text := by
          unfold Ptr.chars SD.text; simp only [Ptr.len]
          apply List.map_congr_left; intro k _; simp only [Ptr.ch]; rw [he]; dsimp only; rw [Nat.zero_add]
        have := onHandle_ok (f := fun m p => append cls m p (.inn a 0 e.size) al) hp (append_ok (al := al) w bd hm (fresh_of hp hm w ha) so)
        have eq : onHandle s i (fun m p => appendS cls m p a al) = onHandle s i (fun m p => append cls m p (.inn a 0 e.size) al) := by
          unfold onHandle; rw [hp]; dsimp only
          have : appendS cls s.mem p a al = append cls s.mem p (.inn a 0 e.size) al := by
            unfold appendS; rw [he, hm]; dsimp only; rw [if_neg hz, if_neg hz']
          rw [this]
        rw [eq]
        refine WPost.mono this ?_ ?_
        · rintro hr d' ⟨x1, x2, _, x3⟩
          rw [ch] at x3
          simp only [Op.src]; rw [hbj]; dsimp only
          refine ⟨fun _ => ?_, fun ht _ _ hi => ?_⟩
          · rcases x3 with ⟨rfl, h⟩ | ⟨rfl, h1, h2⟩
            · exact .inl ⟨rfl, h⟩
            · exact .inr (.inl ⟨rfl, h1, by rw [h2]⟩)
          · rcases x3 with ⟨rfl, h⟩ | ⟨rfl, h1, h2⟩
            · exact x2 (.inr (by simp only [Ptr.len]; omega)) rfl
            · rw [h2]; rw [h2] at hi; exact ht _ _ hd hi
        · rintro d' ⟨x1, x2, x3⟩
          simp only [Op.src]; rw [hbj]; dsimp only
          exact ⟨fun _ => .inr (.inr ⟨rfl, x1, by rw [text_length, text_length]; exact x2, by rw [x3]⟩), fun ht => by rw [x3]; exact ht _ _ hd⟩
  | appendChar i' c al =>
    cases hi
    obtain ⟨_, ha⟩ := hv
    simp only [step]
    refine WPost.mono (onHandle_ok hp (appendChar_ok w bd hm (fresh_of hp hm w ha))) ?_ ?_
    · rintro hr d' ⟨x1, x2, _, x3⟩
      refine ⟨fun _ => ?_, fun ht _ _ hi => ?_⟩
      · rcases x3 with ⟨rfl, h⟩ | ⟨rfl, h1, h2⟩
        · exact .inl ⟨rfl, h⟩
        · exact .inr (.inl ⟨rfl, h1, by rw [h2]⟩)
      · rcases x3 with ⟨rfl, h⟩ | ⟨rfl, h1, h2⟩
        · exact x2 rfl
        · rw [h2]; rw [h2] at hi; exact ht _ _ hd hi
    · rintro d' ⟨x1, x2, x3⟩
      exact ⟨fun _ => .inr (.inr ⟨rfl, x1, by rw [text_length]; exact x2, by rw [x3]⟩), fun ht => by rw [x3]; exact ht _ _ hd⟩
  | setItem i' k c al =>
    cases hi
    obtain ⟨_, ha⟩ := hv
    simp only [step]
    refine WPost.mono (onHandle_ok hp (setItem_ok w bd hm (fresh_of hp hm w ha))) ?_ (fun _ h => h.elim)
    rintro hr d' ⟨x1, x3⟩
    have hsh : d.isShared → k < d.size → SharedWith s i := by
      intro hs hk
      have p0 : p ≠ 0 := by intro e; subst e; have := inv.zero_eq hm; subst this; simp [emptySD] at hk
      exact (sharedWith_iff hp hm p0 w).2 hs
    simp only [Exposed]
    refine ⟨fun ne => ?_, fun ht ne _ hi => ?_⟩
    · rcases x3 with ⟨rfl, h, h2⟩ | ⟨rfl, h1, h2, h3⟩ | ⟨rfl, h1, h2, h3, _⟩ | ⟨rfl, h1, h2, _⟩
      · exact .inl ⟨rfl, by rw [text_length]; exact h, by rw [h2]⟩
      · exact .inr (.inr ⟨rfl, h2, by rw [h3]⟩)
      · exact .inr (.inl ⟨rfl, by rw [text_length]; exact h1, h3⟩)
      · exact absurd ⟨hsh h2 h1, by omega⟩ ne
    · rcases x3 with ⟨rfl, h, h2⟩ | ⟨rfl, h1, h2, h3⟩ | ⟨rfl, h1, h2, h3, h4, h5, h6⟩ | ⟨rfl, h1, h2, _⟩
      · rw [h2]; rw [h2] at hi; exact ht _ _ hd hi
      · rw [h3]; rw [h3] at hi; exact ht _ _ hd hi
      · rw [h5, h6]
        refine ht _ _ hd ?_
        have := sl_tm x1 hi
        have hk : d.iRef ≠ 0 := by
          by_cases ha0 : p = 0
          · subst ha0; have := inv.zero_eq hm; subst this; simp [emptySD, imax]
          · have := inv.blk p d ha0 hm; omega
        omega
      · exact absurd ⟨hsh h2 h1, by omega⟩ ne
  | setEnc i' e al =>
    cases hi
    obtain ⟨_, ha⟩ := hv
    have hsh : d.isShared → 0 < d.size → SharedWith s i := by
      intro hs hk
      have p0 : p ≠ 0 := by intro e; subst e; have := inv.zero_eq hm; subst this; simp [emptySD] at hk
      exact (sharedWith_iff hp hm p0 w).2 hs
    simp only [step]
    refine WPost.mono (onHandle_ok hp (setEnc_ok w bd hm (fresh_of hp hm w ha))) ?_ ?_
    · rintro hr d' ⟨x1, x3⟩
      simp only [Exposed]
      refine ⟨fun ne => ?_, fun ht ne _ hi => ?_⟩
      · rcases x3 with ⟨h, h2, _⟩ | ⟨rfl, h2, _⟩ | ⟨rfl, h1, h2, h3, _⟩ | ⟨rfl, h1, h2, h3, _⟩
        · subst h2; exact ⟨rfl, fun hh => absurd rfl hh.2, fun _ => rfl⟩
        · subst h2; exact ⟨rfl, fun hh => absurd rfl hh.2, fun _ => rfl⟩
        · exact ⟨h2, fun _ => h3, fun hh => absurd rfl hh⟩
        · by_cases hz : 0 < d.size
          · exact absurd ⟨hsh h1 hz, hz⟩ ne
          · exact ⟨by rw [text_empty.2 h2, text_empty.2 (by omega)], fun _ => h3, fun hh => absurd rfl hh⟩
      · rcases x3 with ⟨h, h2, _⟩ | ⟨rfl, h2, _⟩ | ⟨rfl, h1, h2, h3, h5, h6, _⟩ | ⟨rfl, h1, h2, h3, h4, h5⟩
        · rw [h2]; rw [h2] at hi; exact ht _ _ hd hi
        · rw [h2]; rw [h2] at hi; exact ht _ _ hd hi
        · rw [h5, h6]
          refine ht _ _ hd ?_
          have := sl_tm x1 hi
          have hk : d.iRef ≠ 0 := by
            by_cases ha0 : p = 0
            · subst ha0; have := inv.zero_eq hm; subst this; simp [emptySD, imax]
            · have := inv.blk p d ha0 hm; omega
          omega
        · by_cases hz : 0 < d.size
          · exact absurd ⟨hsh h1 hz, hz⟩ ne
          · rw [h2]; rw [show d.size = 0 by omega] at h5; exact h5
    · rintro d' ⟨x1, x2, x3⟩
      subst x3
      exact ⟨fun _ => ⟨rfl, fun hh => (by cases hh.1), fun _ => rfl⟩, fun ht => ht _ _ hd⟩
  | remove i' a n al =>
    cases hi
    obtain ⟨_, ha, hal⟩ := hv
    simp only [step]
    have hal' : d.isShared → p ≠ 0 → al ≠ none :=
      fun hs p0 e => hal ((sharedWith_iff hp hm p0 w).2 hs) e
    refine WPost.mono (onHandle_ok hp (remove_ok w bd2 hm (fresh_of hp hm w ha) hal')) ?_ (fun _ h => h.elim)
    rintro hr d' ⟨rfl, x1, x2, _, x3⟩
    refine ⟨fun _ => ⟨rfl, x3⟩, fun ht _ _ hi => x2 (ht _ _ hd ?_)⟩
    have := sl_tm x1 hi
    have hk : d.iRef ≠ 0 := by
      by_cases ha0 : p = 0
      · subst ha0; have := inv.zero_eq hm; subst this; simp [emptySD, imax]
      · have := inv.blk p d ha0 hm; omega
    omega
  | lock i' cap al =>
    cases hi
    obtain ⟨_, ha⟩ := hv
    have hsh : d.isShared → 0 < d.size → SharedWith s i := by
      intro hs hk
      have p0 : p ≠ 0 := by intro e; subst e; have := inv.zero_eq hm; subst this; simp [emptySD] at hk
      exact (sharedWith_iff hp hm p0 w).2 hs
    simp only [step]
    refine WPost.mono (onHandle_ok hp (lock_post w bd hm (fresh_of hp hm w ha))) ?_ ?_
    · rintro hr d' x3
      simp only [Exposed]
      refine ⟨fun ne => ?_, fun ht ne _ hi => ?_⟩
      · rcases x3 with ⟨rfl, h, h2⟩ | ⟨rfl, h1, h2, h3, h4⟩ | ⟨rfl, h1, h2, h3, h4, h5⟩
        · exact ⟨by rw [h2], .inr (.inl ⟨rfl, h⟩)⟩
        · exact ⟨by rw [h4, text_empty.2 h3]; rfl, .inl ⟨rfl, by omega⟩⟩
        · refine ⟨?_, .inl ⟨rfl, h1⟩⟩
          by_cases hs : d.isShared
          · by_cases hz : 0 < d.size
            · exact absurd ⟨hsh hs hz, hz⟩ ne
            · rw [text_empty.2 (h5 hs), text_empty.2 (by omega)]
          · exact (h3 hs).1
      · rcases x3 with ⟨rfl, h, h2⟩ | ⟨rfl, h1, h2, h3, h4⟩ | ⟨rfl, h1, h2, h3, h4, h5⟩
        · rw [h2]; rw [h2] at hi; exact ht _ _ hd hi
        · rw [h4]; rfl
        · rw [h2] at hi; split at hi <;> omega
    · rintro d' ⟨x1, x2, x3⟩
      exact ⟨fun _ => ⟨by rw [x3], .inr (.inr ⟨rfl, x1, x2⟩)⟩, fun ht => by rw [x3]; exact ht _ _ hd⟩
  | write i' k c =>
    cases hi
    obtain ⟨d2, hd2, hl2, hk⟩ := hv
    rw [hd] at hd2; cases hd2
    simp only [step]
    refine WPost.mono (onHandle_ok hp (write_post w hm hl2 hk)) ?_ (fun _ h => h.elim)
    rintro hr d' ⟨rfl, x1, x2, x3, x4⟩
    exact ⟨fun _ => ⟨rfl, x3, x4⟩, fun _ _ _ hi => by omega⟩
  | unlockN i' n =>
    cases hi
    simp only [step]
    refine WPost.mono (onHandle_ok hp (unlockN_post w bd hm)) ?_ ?_
    · rintro hr d' ⟨rfl, ⟨h1, h2⟩ | ⟨h1, h2, h3, h4, _⟩⟩
      · subst h2 h1
        have := inv.zero_eq hm; subst this
        exact ⟨fun _ => .inl ⟨rfl, by simp [emptySD, SD.text]⟩, fun ht _ _ => ht _ _ hd⟩
      · refine ⟨fun _ => .inl ⟨rfl, text_of h2 ?_⟩, fun _ _ _ _ => h4⟩
        intro k hk; exact h3 k (by omega)
    · rintro d' ⟨x1, x3⟩
      exact ⟨fun _ => .inr ⟨rfl, x1, by rw [x3]⟩, fun ht => by rw [x3]; exact ht _ _ hd⟩
  | unlock i' =>
    cases hi
    simp only [step]
    refine WPost.mono (onHandle_ok hp (unlock_post w bd hm)) ?_ ?_
    · rintro hr d' ⟨rfl, ⟨h1, h2⟩ | ⟨h1, h2⟩⟩
      · subst h2; exact ⟨fun _ => ⟨rfl, .inl rfl⟩, fun ht _ _ => ht _ _ hd⟩
      · rw [h2]
        exact ⟨fun _ => ⟨rfl, .inl rfl⟩, fun _ _ hti _ => hti⟩
    · rintro d' ⟨x1, x3⟩
      exact ⟨fun _ => ⟨by rw [x3], .inr ⟨rfl, x1⟩⟩, fun ht => by rw [x3]; exact ht _ _ hd⟩

end Verif.StrHeap
