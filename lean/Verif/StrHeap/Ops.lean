import Verif.StrHeap.Lemmas

/-! What every member function of `StringBase` does to the handle it is called on. -/

namespace Verif.StrHeap

/-- outcome specification of a member function: never undefined, other handles see nothing, and `Q`
(normal return) or `T` (exception) describes the handle's block afterwards -/
def Post (cls : Nat) (o : Nat → Nat) (m : Mem) (r : Res) (Q : Hr → SD → Prop) (T : SD → Prop) : Prop :=
  match r with
  | .ub => False
  | .thr m' p' => Loc cls o m m' p' ∧ ∃ d', m' p' = some d' ∧ T d'
  | .ret hr m' p' => Loc cls o m m' p' ∧ ∃ d', m' p' = some d' ∧ Q hr d'

/-- `d'` is what `d`'s lock state was: unlocked, or locked as many times -/
def SameLock (d d' : SD) : Prop := if d.iRef < 0 then d'.iRef = d.iRef else 0 < d'.iRef

theorem Loc.excl {cls o m m' p' d'} (_ : Loc cls o m m' p') (hw : WF cls m' (plus o p')) (hd : m' p' = some d')
    (hp : p' ≠ 0) (hl : d'.iRef < 0) : o p' = 0 := by
  have := hw.blk p' d' hp hd
  rw [plus_eq] at this
  omega

theorem locked_sole {cls o m' p' d'} (hw : WF cls m' (plus o p')) (hd : m' p' = some d')
    (hp : p' ≠ 0) (hl : d'.iRef < 0) : o p' = 0 ∧ d'.size ≤ d'.cap ∧ 0 < d'.cap := by
  have := hw.blk p' d' hp hd
  rw [plus_eq] at this
  omega

theorem unlockN_ok {cls o m q d1} (n : Nat) (w : WF cls m (plus o q)) (q0 : q ≠ 0) (hd : m q = some d1) (hl : d1.iRef < 0) :
    ∃ d2, unlockN m q n = .ret .ok (upd m q (some d2)) q ∧ Loc cls o m (upd m q (some d2)) q ∧
      d2.size = min n d1.cap ∧ d2.cap = d1.cap ∧ d2.enc = d1.enc ∧
      d2.iRef = (if d1.iRef = -1 then 1 else d1.iRef + 1) ∧ d2.buf d2.size = 0 ∧
      ∀ k, k < d2.size → d2.buf k = d1.buf k := by
  obtain ⟨oq, hs, hc⟩ := locked_sole w hd q0 hl
  have hn : ∃ N, N = (if d1.cap < n then d1.cap else n) ∧ N = min n d1.cap ∧ N ≤ d1.cap := by
    refine ⟨_, rfl, ?_⟩; split <;> omega
  obtain ⟨N, hN, hN1, hN2⟩ := hn
  refine ⟨⟨if d1.iRef = -1 then 1 else d1.iRef + 1, d1.cap, N, d1.enc, fun x => if x = N then 0 else d1.buf x⟩, ?_, ?_,
    hN1, rfl, rfl, rfl, ?_, ?_⟩
  · unfold unlockN; rw [hd]; dsimp only
    have hr : ¬ d1.isReadOnly := by unfold SD.isReadOnly imax; omega
    rw [if_neg hr, if_neg (by simpa [SD.isLocked] using hl), ← hN]
    unfold wr; rw [upd_eq]; dsimp only
    rw [if_neg q0, if_neg (by omega)]; dsimp only
    unfold doUnlock; rw [upd_eq]; dsimp only
    rw [if_neg (by omega), upd_upd, upd_upd]
  · refine loc_set w hd q0 oq ⟨hN2, hc⟩ ?_
    unfold Excl; dsimp only
    split <;> omega
  · simp
  · intro k hk; dsimp only at *; rw [if_neg (by omega)]

theorem unlock_ok {cls o m q d1} (w : WF cls m (plus o q)) (q0 : q ≠ 0) (hd : m q = some d1) (hl : d1.iRef < 0) :
    unlock m q = .ret .ok (upd m q (some { d1 with iRef := if d1.iRef = -1 then 1 else d1.iRef + 1 })) q ∧
    Loc cls o m (upd m q (some { d1 with iRef := if d1.iRef = -1 then 1 else d1.iRef + 1 })) q := by
  obtain ⟨oq, hs, hc⟩ := locked_sole w hd q0 hl
  constructor
  · unfold unlock; rw [hd]; dsimp only
    have hr : ¬ d1.isReadOnly := by unfold SD.isReadOnly imax; omega
    rw [if_neg hr]; unfold doUnlock; rw [hd]; dsimp only; rw [if_neg (by omega)]
  · refine loc_set w hd q0 oq ⟨hs, hc⟩ ?_
    unfold Excl; dsimp only
    split <;> omega

/-- the `i`-th character a source pointer designates in memory `m` -/
def Ptr.ch (m : Mem) : Ptr → Nat → Nat
  | .ext l, i => l.getD i 0
  | .inn a off _, i => match m a with
    | some e => e.buf (off + i)
    | none => 0

/-- the characters a source pointer designates -/
def Ptr.chars (m : Mem) (src : Ptr) : List Nat := (List.range src.len).map (src.ch m)

/-- a range of a live buffer, disjoint from the destination range when it is the same buffer -/
def Readable (m : Mem) (q off : Nat) : Ptr → Prop
  | .ext _ => True
  | .inn a o n => (∃ e, m a = some e ∧ o + n ≤ e.cap + 1) ∧ (a = q → o + n ≤ off ∨ off + n ≤ o)

theorem copyIn_ok {m : Mem} {q off : Nat} {src : Ptr} {d1 : SD} (q0 : q ≠ 0) (hd : m q = some d1)
    (hroom : off + src.len ≤ d1.cap + 1) (hr : Readable m q off src) :
    ∃ B : Nat → Nat, copyIn m q off src = some (upd m q (some { d1 with buf := B })) ∧
      (∀ i, i < src.len → B (off + i) = src.ch m i) ∧ (∀ k, ¬ (off ≤ k ∧ k < off + src.len) → B k = d1.buf k) := by
  cases src with
  | ext l =>
    simp only [Ptr.len] at *
    refine ⟨fun k => if off ≤ k ∧ k < off + l.length then l.getD (k - off) 0 else d1.buf k, ?_, ?_, ?_⟩
    · unfold copyIn; rw [hd]; dsimp only; rw [if_neg q0, if_neg (by omega)]
    · intro i hi; dsimp only; rw [if_pos ⟨by omega, by omega⟩, Nat.add_sub_cancel_left]; rfl
    · intro k hk; dsimp only; rw [if_neg hk]
  | inn a o n =>
    simp only [Ptr.len] at *
    obtain ⟨⟨e, he, hc⟩, hdis⟩ := hr
    refine ⟨fun k => if off ≤ k ∧ k < off + n then e.buf (o + (k - off)) else d1.buf k, ?_, ?_, ?_⟩
    · unfold copyIn; rw [hd]; dsimp only; rw [if_neg q0, he]; dsimp only
      rw [if_neg (by omega), if_neg (fun hh => hh.2 (hdis hh.1))]
    · intro i hi; dsimp only; rw [if_pos ⟨by omega, by omega⟩, Nat.add_sub_cancel_left]
      simp only [Ptr.ch]; rw [he]
    · intro k hk; dsimp only; rw [if_neg hk]

theorem wr_ok {m : Mem} {q k c : Nat} {d1 : SD} (q0 : q ≠ 0) (hd : m q = some d1) (hk : k ≤ d1.cap) :
    wr m q k c = some (upd m q (some { d1 with buf := fun x => if x = k then c else d1.buf x })) := by
  unfold wr; rw [hd]; dsimp only; rw [if_neg q0, if_neg (by omega)]

theorem text_congr {d d' : SD} (hs : d'.size = d.size) (hb : ∀ k, k < d.size → d'.buf k = d.buf k) : d'.text = d.text := by
  unfold SD.text; rw [hs]
  exact List.map_congr_left fun k hk => hb k (List.mem_range.1 hk)

theorem text_append {d d' : SD} {n : Nat} {c : Nat → Nat} (hs : d'.size = d.size + n)
    (hb : ∀ k, k < d.size → d'.buf k = d.buf k) (hc : ∀ i, i < n → d'.buf (d.size + i) = c i) :
    d'.text = d.text ++ (List.range n).map c := by
  unfold SD.text; rw [hs, List.range_add, List.map_append]
  congr 1
  · exact List.map_congr_left fun k hk => hb k (List.mem_range.1 hk)
  · rw [List.map_map]; exact List.map_congr_left fun k hk => hc k (List.mem_range.1 hk)

theorem text_of {d' : SD} {n : Nat} {c : Nat → Nat} (hs : d'.size = n) (hc : ∀ i, i < n → d'.buf i = c i) :
    d'.text = (List.range n).map c := by
  unfold SD.text; rw [hs]; exact List.map_congr_left fun k hk => hc k (List.mem_range.1 hk)

theorem text_length (d : SD) : d.text.length = d.size := by simp [SD.text]

theorem text_get (d : SD) (k : Nat) (h : k < d.size) : d.text[k]? = some (d.buf k) := by
  simp [SD.text, List.getElem?_map, List.getElem?_range h]

theorem text_empty {d : SD} : d.text = [] ↔ d.size = 0 := by
  rw [← List.length_eq_zero_iff, text_length]

theorem sameLock_refl {cls m o p d} (h : WF cls m (plus o p)) (hd : m p = some d) : SameLock d d := by
  unfold SameLock
  by_cases hp : p = 0
  · subst hp; have := h.zero_eq hd; subst this; simp [emptySD, imax]
  · have := h.blk p d hp hd; split <;> omega

theorem lock_unlock {d : SD} {x : Int} (hx : x = if d.iRef < 0 then d.iRef - 1 else -1) :
    x < 0 ∧ SameLock d ⟨if x = -1 then 1 else x + 1, 0, 0, 0, fun _ => 0⟩ := by
  unfold SameLock
  subst hx
  constructor
  · split <;> omega
  · split
    · dsimp only; rw [if_neg (by omega)]; omega
    · simp

theorem sameLock_of {d d2 : SD} {x : Int} (hx : x = if d.iRef < 0 then d.iRef - 1 else -1)
    (h2 : d2.iRef = if x = -1 then 1 else x + 1) : SameLock d d2 := by
  have := (lock_unlock hx).2
  unfold SameLock at *
  dsimp only at this
  rw [h2]; exact this

/-! ### Clear -/

theorem clear_ok {cls m o p d} (h : WF cls m (plus o p)) (hb : Bd o) (hd : m p = some d) :
    ∃ m' p' d', clear m p = .ret .ok m' p' ∧ Loc cls o m m' p' ∧ m' p' = some d' ∧ d'.size = 0 ∧ d'.buf 0 = 0 ∧
      SameLock d d' ∧ d'.enc = (if d.isShared then cls else d.enc) ∧
      (d.isShared → p' = 0 ∧ d' = emptySD cls) ∧
      (¬ d.isShared → p' = p ∧ d' = { d with size := 0, buf := fun x => if x = 0 then 0 else d.buf x }) ∧
      (∀ a, a ≠ p → m' a = m a) := by
  unfold clear; rw [hd]; dsimp only
  by_cases hs : d.isShared
  · rw [if_pos hs]
    obtain ⟨m', e, w, fr, ne, _⟩ := release_ok h hb
    rw [e]; dsimp only
    refine ⟨m', 0, emptySD cls, rfl, ⟨⟨w.zero, ?_, ?_⟩, fr⟩, w.zero, rfl, rfl, ?_, by rw [if_pos hs]; rfl,
      fun _ => ⟨rfl, rfl⟩, fun hn => absurd hs hn, ne⟩
    · intro a e ha hm; rw [plus_ne _ ha]; exact w.blk a e ha hm
    · intro a ha hm; rw [plus_ne _ ha]; exact w.dead a ha hm
    · unfold SameLock; unfold SD.isShared at hs; rw [if_neg (by omega)]; simp [emptySD, imax]
  · rw [if_neg hs]
    obtain ⟨hp, he, ho⟩ := shared_iff h hd hs
    have hpc := (h.blk p d hp hd).1
    rw [wr_ok hp hd (Nat.zero_le _)]; dsimp only
    rw [upd_eq]; dsimp only; rw [upd_upd]
    have sl := sameLock_refl h hd
    refine ⟨_, p, _, rfl, loc_set h hd hp ho ⟨Nat.zero_le _, hpc.2⟩ he, upd_eq _ _ _, rfl, by simp, ?_,
      by rw [if_neg hs], fun hn => absurd hn hs, fun _ => ⟨rfl, rfl⟩, fun a ha => upd_ne _ _ ha⟩
    exact sl

/-! ### lock, fill, unlock -/

/-- the tail shared by `SetString`, `AppendString`, `AppendChar`, `Remove`: after `LockBuffer` the buffer
contents become `B` and `UnlockBuffer(n)` follows -/
theorem fill_ok {cls o m m' p q d cap al d1} (L : Loc cls o m m' q) (K : Locked cls m p d cap al m' q d1) (B : Nat → Nat)
    (n : Nat) (hn : n ≤ d1.cap) :
    ∃ m2 d2, unlockN (upd m' q (some { d1 with buf := B })) q n = .ret .ok m2 q ∧ Loc cls o m m2 q ∧ m2 q = some d2 ∧
      d2.size = n ∧ d2.buf n = 0 ∧ (∀ k, k < n → d2.buf k = B k) ∧ SameLock d d2 ∧ d2.enc = d1.enc ∧ d2.cap = d1.cap ∧
      (∀ a, a ≠ q → m2 a = m' a) := by
  have hneg := (lock_unlock K.ref).1
  have ls := locked_sole L.wf K.get K.nz hneg
  have L1 : Loc cls o m' (upd m' q (some { d1 with buf := B })) q :=
    loc_set L.wf K.get K.nz ls.1 ls.2 (Or.inr hneg)
  obtain ⟨d2, e, L2, s2, c2, en2, i2, b2, k2⟩ := unlockN_ok n L1.wf K.nz (upd_eq _ _ _) hneg
  dsimp only at s2 c2 en2 i2 k2
  have s2' : d2.size = n := by rw [s2]; omega
  refine ⟨_, d2, e, (L.trans L1).trans L2, upd_eq _ _ _, s2', ?_, ?_, sameLock_of K.ref i2, en2, c2, ?_⟩
  · rw [← s2']; exact b2
  · intro k hk; exact k2 k (by omega)
  · intro a ha; rw [upd_ne _ _ ha, upd_ne _ _ ha]

/-- an empty source, a source range whose buffer other handles keep alive, or external memory -/
def SrcOk (o : Nat → Nat) (m : Mem) : Ptr → Prop
  | .ext _ => True
  | .inn a off n => n = 0 ∨ 0 < o a ∧ ∃ e, m a = some e ∧ off + n ≤ e.cap + 1

theorem obs_some {m m' : Mem} {a : Nat} {e : SD} (h : obs m' a = obs m a) (he : m a = some e) :
    ∃ e', m' a = some e' ∧ e'.cap = e.cap ∧ e'.buf = e.buf ∧ e'.size = e.size ∧ e'.enc = e.enc ∧ min e'.iRef 1 = min e.iRef 1 := by
  unfold obs at h; rw [he] at h
  cases e1 : m' a with
  | none => rw [e1] at h; simp at h
  | some e' =>
    rw [e1] at h; simp at h
    exact ⟨e', rfl, h.2.1, h.2.2.2.2, h.2.2.1, h.2.2.2.1, h.1⟩

theorem srcOk_readable {cls o m m' q off src} (L : Loc cls o m m' q) (q0 : o q = 0) (hs : SrcOk o m src) (hz : src.len ≠ 0) :
    Readable m' q off src ∧ src.chars m' = src.chars m ∧ (∀ i, src.ch m' i = src.ch m i) := by
  cases src with
  | ext l => exact ⟨trivial, rfl, fun _ => rfl⟩
  | inn a of n =>
    obtain ⟨ha, e, he, hc⟩ := hs.resolve_left hz
    obtain ⟨e', h1, h2, h3, _⟩ := obs_some (L.frame a ha) he
    have hch : ∀ i, Ptr.ch m' (.inn a of n) i = Ptr.ch m (.inn a of n) i := by
      intro i; simp only [Ptr.ch]; rw [h1, he]; dsimp only; rw [h3]
    refine ⟨⟨⟨e', h1, by omega⟩, fun e => by subst e; omega⟩, ?_, hch⟩
    unfold Ptr.chars; exact List.map_congr_left fun k _ => hch k

theorem fresh_clear {cls m o p d al m' p'} (h : WF cls m (plus o p)) (hd : m p = some d) (hf : Fresh m p al)
    (hs : d.isShared → p' = 0) (hn : ¬ d.isShared → p' = p ∧ ∃ d', m' p = some d' ∧ ¬ d'.isShared)
    (ne : ∀ a, a ≠ p → m' a = m a) : Fresh m' p' al := by
  intro q j e
  obtain ⟨q0, hq⟩ := hf q j e
  refine ⟨q0, ?_⟩
  by_cases sh : d.isShared
  · have := hs sh; subst this
    rcases hq with hq | ⟨e, d', hd', hh⟩
    · have : q ≠ p := by intro e; subst e; rw [hd] at hq; cases hq
      left; rw [ne q this]; exact hq
    · rw [hd] at hd'; cases hd'; exact absurd sh hh
  · obtain ⟨e1, d', hd', hh⟩ := hn sh
    subst e1
    rcases hq with hq | ⟨e, _⟩
    · have : q ≠ p' := by intro e; subst e; rw [hd] at hq; cases hq
      left; rw [ne q this]; exact hq
    · right; exact ⟨e, d', hd', hh⟩

/-- `SetString(ptr, n)` -/
theorem setStr_ok {cls m o p d src al} (h : WF cls m (plus o p)) (hb : Bd o) (hd : m p = some d) (hf : Fresh m p al)
    (hs : SrcOk o m src) :
    Post cls o m (setStr cls m p src al)
      (fun hr d' => d'.buf d'.size = 0 ∧ SameLock d d' ∧ d'.enc = (if d.isShared then cls else d.enc) ∧
        ((hr = .ok ∧ d'.text = src.chars m) ∨ (hr = .oom ∧ al = none ∧ d'.text = [])))
      (fun d' => d.isLocked ∧ d.cap < src.len ∧ SameLock d d' ∧ d'.text = [] ∧ d'.buf d'.size = 0) := by
  unfold setStr
  obtain ⟨m1, p1, d1, e1, L1, g1, s1, b1, sl1, en1, sh1, ex1, ne1⟩ := clear_ok h hb hd
  rw [e1]; dsimp only
  have t1 : d1.text = [] := text_empty.2 s1
  by_cases hz : src.len = 0
  · rw [if_pos hz]
    refine ⟨L1, d1, g1, ?_, sl1, en1, .inl ⟨rfl, ?_⟩⟩
    · rw [s1]; exact b1
    · rw [t1]; unfold Ptr.chars; rw [hz]; rfl
  · rw [if_neg hz]
    have hf1 : Fresh m1 p1 al := by
      refine fresh_clear h hd hf (fun hh => (sh1 hh).1) (fun hh => ?_) ne1
      obtain ⟨a, b⟩ := ex1 hh
      refine ⟨a, d1, ?_, ?_⟩
      · rw [← a]; exact g1
      · rw [b]; exact hh
    rcases lockBuffer_ok L1.wf hb g1 hf1 (cap := src.len) with ⟨e, ha, _⟩ | ⟨e, hl, hc⟩ | ⟨e, _⟩ | ⟨m2, q, d2, e, L2, K⟩
    · rw [e]
      exact ⟨L1, d1, g1, by rw [s1]; exact b1, sl1, en1, .inr ⟨rfl, ha, t1⟩⟩
    · rw [e]
      have hns : ¬ d.isShared := by
        intro hh; have := (sh1 hh).2; rw [this] at hl; simp [SD.isLocked, emptySD, imax] at hl
      have hd1 := (ex1 hns).2
      refine ⟨L1, d1, g1, ?_, ?_, sl1, t1, by rw [s1]; exact b1⟩
      · rw [hd1] at hl; exact hl
      · rw [hd1] at hc; exact hc
    · exact absurd e hz
    · rw [e]; dsimp only
      have hneg := (lock_unlock K.ref).1
      have oq := (locked_sole L2.wf K.get K.nz hneg).1
      obtain ⟨hr, _, hch⟩ := srcOk_readable (off := 0) (L1.trans L2) oq hs hz
      have hroom := K.room
      obtain ⟨B, eB, B1, B2⟩ := copyIn_ok K.nz K.get (by omega) hr
      rw [eB]; dsimp only
      obtain ⟨m3, d3, e3, L3, g3, s3, z3, k3, sl3, en3, _⟩ := fill_ok L2 K B src.len K.room
      rw [e3]
      refine ⟨L1.trans L3, d3, g3, by rw [s3]; exact z3, ?_, ?_, .inl ⟨rfl, ?_⟩⟩
      · unfold SameLock at *
        split
        · rename_i hh; rw [if_pos hh] at sl1; rw [if_pos (by omega)] at sl3; omega
        · rename_i hh; rw [if_neg hh] at sl1; rw [if_neg (by omega)] at sl3; omega
      · rw [en3]
        by_cases hh : d.isShared
        · rw [if_pos hh]
          refine (K.shared ?_).2.1
          rw [(sh1 hh).2]; simp [SD.isShared, emptySD, imax]
        · rw [if_neg hh]
          rw [(K.excl (by rw [(ex1 hh).2]; exact hh)).2.1, (ex1 hh).2]
      · rw [text_of (c := src.ch m) s3 ?_]; rfl
        intro i hi; rw [k3 i hi]; have := B1 i hi; rw [Nat.zero_add] at this; rw [this, hch]

/-- `AppendString(ptr, n)` -/
theorem append_ok {cls m o p d src al} (h : WF cls m (plus o p)) (hb : Bd o) (hd : m p = some d) (hf : Fresh m p al)
    (hs : SrcOk o m src) :
    Post cls o m (append cls m p src al)
      (fun hr d' => SameLock d d' ∧ (d.buf d.size = 0 ∨ 0 < src.len → hr = .ok → d'.buf d'.size = 0) ∧
        (¬ d.isShared → d'.enc = d.enc) ∧
        ((hr = .ok ∧ d'.text = d.text ++ src.chars m) ∨ (hr = .oom ∧ al = none ∧ d' = d)))
      (fun d' => d.isLocked ∧ d.cap < d.size + src.len ∧ d' = d) := by
  unfold append
  by_cases hz : src.len = 0
  · rw [if_pos hz]
    refine ⟨Loc.refl h, d, hd, sameLock_refl h hd, ?_, fun _ => rfl, .inl ⟨rfl, ?_⟩⟩
    · intro hh _; rcases hh with hh | hh
      · exact hh
      · omega
    · unfold Ptr.chars; rw [hz]; simp
  · rw [if_neg hz, hd]; dsimp only
    rcases lockBuffer_ok h hb hd hf (cap := d.size + src.len) with ⟨e, ha, _⟩ | ⟨e, hl, hc⟩ | ⟨e, _⟩ | ⟨m2, q, d2, e, L2, K⟩
    · rw [e]; exact ⟨Loc.refl h, d, hd, sameLock_refl h hd, (fun _ hh => by cases hh), fun _ => rfl, .inr ⟨rfl, ha, rfl⟩⟩
    · rw [e]; exact ⟨Loc.refl h, d, hd, hl, hc, rfl⟩
    · omega
    · rw [e]; dsimp only
      have hneg := (lock_unlock K.ref).1
      have oq := (locked_sole L2.wf K.get K.nz hneg).1
      obtain ⟨hr, _, hch⟩ := srcOk_readable (off := d.size) L2 oq hs hz
      have hroom := K.room
      obtain ⟨B, eB, B1, B2⟩ := copyIn_ok K.nz K.get (by omega) hr
      rw [eB]; dsimp only
      obtain ⟨m3, d3, e3, L3, g3, s3, z3, k3, sl3, en3, _⟩ := fill_ok L2 K B (d.size + src.len) K.room
      rw [e3]
      refine ⟨L3, d3, g3, sl3, fun _ _ => by rw [s3]; exact z3, ?_, .inl ⟨rfl, ?_⟩⟩
      · intro hh; rw [en3]; exact (K.excl hh).2.1
      · refine text_append s3 ?_ ?_
        · intro k hk; rw [k3 k (by omega), B2 k (by omega)]; exact K.buf k hk
        · intro i hi; rw [k3 _ (by omega), B1 i hi, hch]

/-- appending from the handle's own buffer: in place when the capacity suffices -/
theorem append_own_ok {cls m o p d off n al} (h : WF cls m (plus o p)) (hb : Bd o) (hd : m p = some d) (hf : Fresh m p al)
    (hr : off + n ≤ d.size) (hroom : ¬ d.isShared → d.size + n ≤ d.cap) :
    Post cls o m (append cls m p (.inn p off n) al)
      (fun hr d' => SameLock d d' ∧ ((hr = .ok ∧ d'.text = d.text ++ (d.text.drop off).take n) ∨ (hr = .oom ∧ al = none ∧ d' = d)))
      (fun _ => False) := by
  have htx : (List.range n).map (fun i => d.buf (off + i)) = (d.text.drop off).take n := by
    apply List.ext_getElem?
    intro k
    by_cases hk : k < n
    · rw [List.getElem?_take_of_lt hk, List.getElem?_drop, text_get _ _ (by omega), List.getElem?_map, List.getElem?_range hk]; rfl
    · rw [List.getElem?_eq_none (by simp; omega), List.getElem?_eq_none]
      simp only [List.length_take, List.length_drop, text_length]; omega
  have hch : (Ptr.inn p off n).chars m = (d.text.drop off).take n := by
    rw [← htx]; unfold Ptr.chars; simp only [Ptr.len]
    apply List.map_congr_left; intro k _; simp only [Ptr.ch]; rw [hd]
  have hsz := h.size_le hd
  by_cases hsh : d.isShared
  · by_cases hp : p = 0
    · -- the static empty block: nothing to append
      have hn : n = 0 := by subst hp; have := h.zero_eq hd; subst this; simp [emptySD] at hr; omega
      subst hn
      unfold append; rw [if_pos (show (Ptr.inn p off 0).len = 0 from rfl)]
      exact ⟨Loc.refl h, d, hd, sameLock_refl h hd, .inl ⟨rfl, by simp⟩⟩
    · have ho : 0 < o p := by
        rcases h.cases hd hp with e | e
        · exact absurd hsh e.2.2
        · exact e.2.1
      have A := append_ok (src := .inn p off n) h hb hd hf (.inr ⟨ho, d, hd, by omega⟩)
      unfold Post at *
      split at A
      · exact A
      · obtain ⟨_, d', _, hl, _⟩ := A; unfold SD.isLocked at hl; unfold SD.isShared at hsh; omega
      · rw [hch] at A
        obtain ⟨L, d', g, s, _, _, hh⟩ := A
        exact ⟨L, d', g, s, hh⟩
  · obtain ⟨hp, he, ho⟩ := shared_iff h hd hsh
    unfold append
    by_cases hz : n = 0
    · subst hz; rw [if_pos (show (Ptr.inn p off 0).len = 0 from rfl)]
      exact ⟨Loc.refl h, d, hd, sameLock_refl h hd, .inl ⟨rfl, by simp⟩⟩
    · rw [if_neg (show ¬ (Ptr.inn p off n).len = 0 from hz), hd]; dsimp only [Ptr.len]
      have hroom := hroom hsh
      rcases lockBuffer_ok h hb hd hf (cap := d.size + n) with ⟨e, ha, _⟩ | ⟨e, hl, hc⟩ | ⟨e, _⟩ | ⟨m2, q, d2, e, L2, K⟩
      · rw [e]; exact ⟨Loc.refl h, d, hd, sameLock_refl h hd, .inr ⟨rfl, ha, rfl⟩⟩
      · omega
      · omega
      · rw [e]; dsimp only
        obtain ⟨x1, x2, x3, x4⟩ := K.excl hsh
        obtain ⟨hq, hc⟩ := x4 hroom
        subst hq
        obtain ⟨B, eB, B1, B2⟩ := copyIn_ok (off := d.size) (src := .inn q off n) K.nz K.get (by simp only [Ptr.len]; omega)
          ⟨⟨d2, K.get, by omega⟩, fun _ => .inl (by omega)⟩
        rw [eB]; dsimp only
        obtain ⟨m3, d3, e3, L3, g3, s3, z3, k3, sl3, en3, _⟩ := fill_ok L2 K B (d.size + n) K.room
        rw [e3]
        refine ⟨L3, d3, g3, sl3, .inl ⟨rfl, ?_⟩⟩
        rw [← htx]
        simp only [Ptr.len] at B1 B2
        refine text_append s3 ?_ ?_
        · intro k hk; rw [k3 k (by omega), B2 k (by omega)]; exact K.buf k hk
        · intro i hi; rw [k3 _ (by omega), B1 i hi]; simp only [Ptr.ch]; rw [K.get]; exact x3 _ (by omega)

/-- `AppendChar` -/
theorem appendChar_ok {cls m o p d c al} (h : WF cls m (plus o p)) (hb : Bd o) (hd : m p = some d) (hf : Fresh m p al) :
    Post cls o m (appendChar cls m p c al)
      (fun hr d' => SameLock d d' ∧ (hr = .ok → d'.buf d'.size = 0) ∧
        (¬ d.isShared → d'.enc = d.enc) ∧
        ((hr = .ok ∧ d'.text = d.text ++ [c]) ∨ (hr = .oom ∧ al = none ∧ d' = d)))
      (fun d' => d.isLocked ∧ d.cap < d.size + 1 ∧ d' = d) := by
  unfold appendChar
  rw [hd]; dsimp only
  rcases lockBuffer_ok h hb hd hf (cap := d.size + 1) with ⟨e, ha, _⟩ | ⟨e, hl, hc⟩ | ⟨e, _⟩ | ⟨m2, q, d2, e, L2, K⟩
  · rw [e]; exact ⟨Loc.refl h, d, hd, sameLock_refl h hd, (fun hh => by cases hh), fun _ => rfl, .inr ⟨rfl, ha, rfl⟩⟩
  · rw [e]; exact ⟨Loc.refl h, d, hd, hl, hc, rfl⟩
  · omega
  · rw [e]; dsimp only
    have hroom := K.room
    rw [wr_ok K.nz K.get (by omega)]; dsimp only
    obtain ⟨m3, d3, e3, L3, g3, s3, z3, k3, sl3, en3, _⟩ := fill_ok L2 K (fun x => if x = d.size then c else d2.buf x) (d.size + 1) K.room
    rw [e3]
    refine ⟨L3, d3, g3, sl3, (fun _ => by rw [s3]; exact z3), ?_, .inl ⟨rfl, ?_⟩⟩
    · intro hh; rw [en3]; exact (K.excl hh).2.1
    · refine text_append (n := 1) (c := fun _ => c) s3 ?_ ?_
      · intro k hk; rw [k3 k (by omega), if_neg (by omega)]; exact K.buf k hk
      · intro i hi; rw [k3 _ (by omega), if_pos (by omega)]

/-- `SetItem`.  On a shared block the new block keeps size 0. -/
theorem setItem_ok {cls m o p d k c al} (h : WF cls m (plus o p)) (hb : Bd o) (hd : m p = some d) (hf : Fresh m p al) :
    Post cls o m (setItem cls m p k c al)
      (fun hr d' => SameLock d d' ∧
        ((hr = .bounds ∧ d.size ≤ k ∧ d' = d) ∨ (hr = .oom ∧ k < d.size ∧ al = none ∧ d' = d) ∨
         (hr = .ok ∧ k < d.size ∧ ¬ d.isShared ∧ d'.text = d.text.set k c ∧ d'.enc = d.enc ∧ d'.size = d.size ∧ d'.buf d.size = d.buf d.size) ∨
         (hr = .ok ∧ k < d.size ∧ d.isShared ∧ d'.size = 0 ∧ d'.enc = cls ∧ (∀ j, j < d.size → d'.buf j = if j = k then c else d.buf j))))
      (fun _ => False) := by
  have hsz := h.size_le hd
  unfold setItem
  rw [hd]; dsimp only
  by_cases hk : d.size ≤ k
  · rw [if_pos hk]; exact ⟨Loc.refl h, d, hd, sameLock_refl h hd, .inl ⟨rfl, hk, rfl⟩⟩
  · rw [if_neg hk]
    rcases lockBuffer_ok h hb hd hf (cap := 0) with ⟨e, ha, _⟩ | ⟨e, hl, hc⟩ | ⟨e, es, _⟩ | ⟨m2, q, d2, e, L2, K⟩
    · rw [e]; exact ⟨Loc.refl h, d, hd, sameLock_refl h hd, .inr (.inl ⟨rfl, by omega, ha, rfl⟩)⟩
    · omega
    · omega
    · rw [e]; dsimp only
      have hsl := K.size_le
      rw [wr_ok K.nz K.get (by omega)]; dsimp only
      have hneg := (lock_unlock K.ref).1
      have ls := locked_sole L2.wf K.get K.nz hneg
      have L3 : Loc cls o m2 (upd m2 q (some { d2 with buf := fun x => if x = k then c else d2.buf x })) q :=
        loc_set L2.wf K.get K.nz ls.1 ls.2 (Or.inr hneg)
      obtain ⟨e4, L4⟩ := unlock_ok L3.wf K.nz (upd_eq _ _ _) hneg
      rw [e4]
      refine ⟨(L2.trans L3).trans L4, _, upd_eq _ _ _, sameLock_of K.ref rfl, ?_⟩
      by_cases hsh : d.isShared
      · obtain ⟨y1, y2, y3, y4, _⟩ := K.shared hsh
        refine .inr (.inr (.inr ⟨rfl, by omega, hsh, y1, y2, ?_⟩))
        intro j hj; dsimp only; split
        · rfl
        · exact K.buf j hj
      · obtain ⟨x1, x2, x3, x4⟩ := K.excl hsh
        refine .inr (.inr (.inl ⟨rfl, by omega, hsh, ?_, x2, x1, ?_⟩))
        · apply List.ext_getElem?
          intro j
          by_cases hj : j < d.size
          · rw [text_get _ _ (by dsimp only; omega)]
            dsimp only
            by_cases hjk : j = k
            · subst hjk; rw [if_pos rfl, List.getElem?_set_self (by rw [text_length]; exact hj)]
            · rw [if_neg hjk, List.getElem?_set_ne (Ne.symm hjk), text_get _ _ hj, K.buf j hj]
          · rw [List.getElem?_eq_none (by rw [text_length]; dsimp only; omega),
              List.getElem?_eq_none (by rw [List.length_set, text_length]; omega)]
        · dsimp only; rw [if_neg (by omega)]; exact x3 _ (by omega)

/-- `SetANSIEncoding`.  On a non-empty shared block the new block keeps size 0. -/
theorem setEnc_ok {cls m o p d e al} (h : WF cls m (plus o p)) (hb : Bd o) (hd : m p = some d) (hf : Fresh m p al) :
    Post cls o m (setEnc cls m p e al)
      (fun hr d' => SameLock d d' ∧
        ((hr ≠ .ok ∧ d' = d ∧ (cls ≠ ansi ∨ isUnicode e = true ∨ al = none)) ∨ (hr = .ok ∧ d' = d ∧ (if cls ≠ ansi then cls else d.enc) = e) ∨
         (hr = .ok ∧ ¬ d.isShared ∧ d'.text = d.text ∧ d'.enc = e ∧ d'.size = d.size ∧ d'.buf d.size = d.buf d.size ∧ d.size ≤ d'.cap) ∨
         (hr = .ok ∧ d.isShared ∧ d'.size = 0 ∧ d'.enc = e ∧ (∀ j, j < d.size → d'.buf j = d.buf j) ∧ d'.buf d.size = 0)))
      (fun d' => d.isLocked ∧ d.cap = 0 ∧ d' = d) := by
  have hsz := h.size_le hd
  unfold setEnc
  rw [hd]; dsimp only
  generalize hX : (if cls ≠ ansi then cls else d.enc) = X
  by_cases he : X = e
  · rw [if_pos he]; exact ⟨Loc.refl h, d, hd, sameLock_refl h hd, .inr (.inl ⟨rfl, rfl, he⟩)⟩
  · rw [if_neg he]
    by_cases h2 : cls ≠ ansi
    · rw [if_pos h2]; exact ⟨Loc.refl h, d, hd, sameLock_refl h hd, .inl ⟨by simp, rfl, .inl h2⟩⟩
    · rw [if_neg h2]
      by_cases h3 : isUnicode e = true
      · rw [if_pos h3]; exact ⟨Loc.refl h, d, hd, sameLock_refl h hd, .inl ⟨by simp, rfl, .inr (.inl h3)⟩⟩
      · rw [if_neg h3]
        rcases lockBuffer_ok h hb hd hf (cap := 1) with ⟨e, ha, _⟩ | ⟨e, hl, hc⟩ | ⟨e, es, _⟩ | ⟨m2, q, d2, e2, L2, K⟩
        · rw [e]; exact ⟨Loc.refl h, d, hd, sameLock_refl h hd, .inl ⟨by simp, rfl, .inr (.inr ha)⟩⟩
        · rw [e]; exact ⟨Loc.refl h, d, hd, hl, by omega, rfl⟩
        · omega
        · rw [e2]; dsimp only
          rw [K.get]; dsimp only; rw [if_neg K.nz]
          have hneg := (lock_unlock K.ref).1
          have ls := locked_sole L2.wf K.get K.nz hneg
          have L3 : Loc cls o m2 (upd m2 q (some { d2 with enc := e })) q :=
            loc_set L2.wf K.get K.nz ls.1 ls.2 (Or.inr hneg)
          obtain ⟨e4, L4⟩ := unlock_ok L3.wf K.nz (upd_eq _ _ _) hneg
          rw [e4]
          refine ⟨(L2.trans L3).trans L4, _, upd_eq _ _ _, sameLock_of K.ref rfl, ?_⟩
          by_cases hsh : d.isShared
          · obtain ⟨y1, y2, y3, y4, _⟩ := K.shared hsh
            exact .inr (.inr (.inr ⟨rfl, hsh, y1, rfl, fun j hj => K.buf j hj, y3⟩))
          · obtain ⟨x1, x2, x3, x4⟩ := K.excl hsh
            refine .inr (.inr (.inl ⟨rfl, hsh, text_congr x1 fun k hk => K.buf k hk, rfl, x1, x3 _ hsz, K.size_le⟩))

/-! ### Remove -/

theorem moveIn_ok {m : Mem} {q off o n : Nat} {d1 : SD} (q0 : q ≠ 0) (hd : m q = some d1)
    (h1 : off + n ≤ d1.cap + 1) (h2 : o + n ≤ d1.cap + 1) :
    moveIn m q off o n = some (upd m q (some { d1 with
      buf := fun k => if off ≤ k ∧ k < off + n then d1.buf (o + (k - off)) else d1.buf k })) := by
  unfold moveIn; rw [hd]; dsimp only; rw [if_neg q0, if_neg (by omega)]

/-- the text after deleting `c` characters at `s` -/
theorem text_cut {d d' : SD} {s c : Nat} (hs : s + c ≤ d.size) (hn : d'.size = d.size - c)
    (h1 : ∀ k, k < s → d'.buf k = d.buf k) (h2 : ∀ k, s ≤ k → k < d.size - c → d'.buf k = d.buf (k + c)) :
    d'.text = d.text.take s ++ d.text.drop (s + c) := by
  apply List.ext_getElem?
  intro k
  by_cases hk : k < d.size - c
  · rw [text_get _ _ (by omega)]
    by_cases hks : k < s
    · rw [List.getElem?_append_left (by rw [List.length_take, text_length]; omega), List.getElem?_take_of_lt hks,
        text_get _ _ (by omega), h1 k hks]
    · rw [List.getElem?_append_right (by rw [List.length_take, text_length]; omega), List.length_take, text_length,
        List.getElem?_drop, text_get _ _ (by omega), h2 k (by omega) hk]
      congr 2; omega
  · rw [List.getElem?_eq_none (by rw [text_length]; omega), List.getElem?_eq_none]
    rw [List.length_append, List.length_take, List.length_drop, text_length]; omega

/-- what `Remove` does to the code page -/
def RemEnc (cls : Nat) (d d' : SD) : Prop := (¬ d.isShared → d'.enc = d.enc) ∧ (cls = ansi → isUnicode d.enc = false → d'.text ≠ [] → d'.enc = d.enc)

/-- `Remove` -/
theorem remove_ok {cls m o p d s c al} (h : WF cls m (plus o p)) (hb2 : ∀ q, Bd (plus (plus o p) q)) (hd : m p = some d) (hf : Fresh m p al)
    (ha : d.isShared → p ≠ 0 → al ≠ none) :
    Post cls o m (remove cls m p s c al)
      (fun hr d' => hr = .ok ∧ SameLock d d' ∧ (d.buf d.size = 0 → d'.buf d'.size = 0) ∧
        RemEnc cls d d' ∧ d'.text = d.text.take s ++ d.text.drop (s + c))
      (fun _ => False) := by
  have hsz := h.size_le hd
  have hb : Bd (plus o p) := by
    intro a ha; have := hb2 p a ha; simp only [plus] at *; omega
  have hbo : Bd o := by
    intro a ha; have := hb a ha; simp only [plus] at this; omega
  have nop : d.text.take s ++ d.text.drop (s + c) = d.text ↔ (d.size ≤ s ∨ min c (d.size - s) = 0) := by
    constructor
    · intro e
      have := congrArg List.length e
      simp only [List.length_append, List.length_take, List.length_drop, text_length] at this
      omega
    · rintro (e | e)
      · rw [List.take_of_length_le (by rw [text_length]; exact e), List.drop_of_length_le (by rw [text_length]; omega)]; simp
      · by_cases hc : c = 0
        · subst hc; rw [Nat.add_zero, List.take_append_drop]
        · rw [List.take_of_length_le (by rw [text_length]; omega), List.drop_of_length_le (by rw [text_length]; omega)]; simp
  unfold remove
  rw [hd]; dsimp only
  by_cases hs : d.size ≤ s
  · rw [if_pos hs]; exact ⟨Loc.refl h, d, hd, rfl, sameLock_refl h hd, id, ⟨fun _ => rfl, fun _ _ _ => rfl⟩, (nop.2 (.inl hs)).symm⟩
  · rw [if_neg hs]
    have hC : ∃ C, C = min c (d.size - s) ∧ s + C ≤ d.size ∧ d.text.drop (s + c) = d.text.drop (s + C) := by
      refine ⟨_, rfl, by omega, ?_⟩
      by_cases hc : c ≤ d.size - s
      · rw [Nat.min_eq_left hc]
      · rw [Nat.min_eq_right (by omega), List.drop_of_length_le (by rw [text_length]; omega),
          List.drop_of_length_le (by rw [text_length]; omega)]
    obtain ⟨C, hC, hC1, hC2⟩ := hC
    rw [← hC]
    by_cases hz : C = 0
    · rw [if_pos hz]
      exact ⟨Loc.refl h, d, hd, rfl, sameLock_refl h hd, id, ⟨fun _ => rfl, fun _ _ _ => rfl⟩, (nop.2 (.inr (hC ▸ hz))).symm⟩
    · rw [if_neg hz, hC2]
      by_cases hn : d.size - C = 0
      · rw [if_pos hn]
        obtain ⟨m1, p1, d1, e1, L1, g1, s1, b1, sl1, en1, _⟩ := clear_ok h hbo hd
        rw [e1]
        refine ⟨L1, d1, g1, rfl, sl1, fun _ => by rw [s1]; exact b1, ⟨fun hh => by rw [en1, if_neg hh], fun _ _ hh => absurd (text_empty.2 s1) hh⟩, ?_⟩
        rw [text_empty.2 s1, List.drop_of_length_le (by rw [text_length]; omega)]
        have : s = 0 := by omega
        subst this; simp
      · rw [if_neg hn]
        by_cases hsh : d.isShared
        · rw [if_pos hsh]
          have hal : ∃ q j, al = some (q, j) := by
            cases al with
            | none => exact absurd rfl (ha hsh (by
                intro e; subst e; have := h.zero_eq hd; subst this; exact hs (Nat.zero_le _)))
            | some x => exact ⟨x.1, x.2, rfl⟩
          obtain ⟨q, j, hal⟩ := hal
          subst hal
          obtain ⟨q0, qn⟩ := fresh_none hf hd hsh
          have h0 : WF cls m (plus (plus o p) 0) :=
            ⟨h.zero, fun a e ha hm => by rw [plus_ne _ ha]; exact h.blk a e ha hm,
              fun a ha hm => by rw [plus_ne _ ha]; exact h.dead a ha hm⟩
          have f0 : Fresh m 0 (some (q, j)) := by
            intro q' j' e; cases e; exact ⟨q0, .inl qn⟩
          rcases lockBuffer_ok h0 hb h.zero f0 (cap := d.size - C) with ⟨e, ha, _⟩ | ⟨e, hl, hc⟩ | ⟨e, es, _⟩ | ⟨m2, q2, d2, e2, L2, K⟩
          · cases ha
          · simp [SD.isLocked, emptySD, imax] at hl
          · exact absurd e hn
          · rw [e2]; dsimp only
            have hneg := (lock_unlock K.ref).1
            have ls := locked_sole L2.wf K.get K.nz hneg
            have pq : p ≠ q2 := by intro e; subst e; have := ls.1; rw [plus_eq] at this; omega
            obtain ⟨d', gp, c1, c2, c3, _⟩ := obs_some (L2.frame p (plus_pos o p)) hd
            have room := K.room
            obtain ⟨B, eB, B1, B2⟩ := copyIn_ok (off := 0) (src := .inn p 0 s) K.nz K.get (by simp only [Ptr.len]; omega)
              ⟨⟨d', gp, by omega⟩, fun e => absurd e pq⟩
            rw [eB]; dsimp only
            have gp2 : upd m2 q2 (some { d2 with buf := B }) p = some d' := by rw [upd_ne _ _ pq]; exact gp
            obtain ⟨B', eB', B1', B2'⟩ := copyIn_ok (off := s) (src := .inn p (s + C) (d.size - C - s)) (d1 := { d2 with buf := B }) K.nz (upd_eq _ _ _)
              (by simp only [Ptr.len]; omega) ⟨⟨d', gp2, by omega⟩, fun e => absurd e pq⟩
            rw [eB']; dsimp only; rw [upd_upd]
            obtain ⟨m3, d3, e3, L3, g3, s3, z3, k3, sl3, en3, cp3, ne3⟩ := fill_ok L2 K B' (d.size - C) K.room
            rw [e3]; dsimp only
            simp only [Ptr.len, Ptr.ch] at B1 B2 B1' B2'
            rw [gp] at B1
            rw [gp2] at B1'
            dsimp only at B1 B1' B2'
            -- the contents of the temporary
            have t3 : d3.text = d.text.take s ++ d.text.drop (s + C) := by
              refine text_cut hC1 s3 ?_ ?_
              · intro k hk
                rw [k3 k (by omega), B2' k (by omega)]
                have := B1 k hk; rw [Nat.zero_add] at this
                rw [this, c2]
              · intro k hk1 hk2
                rw [k3 k hk2]
                have := B1' (k - s) (by omega)
                rw [show s + (k - s) = k by omega] at this
                rw [this, c2]; congr 1; omega
            have ns3 : ¬ d3.isShared ∧ 0 < d3.iRef ∧ plus o p q2 = 0 := by
              have := L3.wf.blk q2 d3 K.nz g3
              rw [plus_eq, ls.1] at this
              have hp3 : 0 < d3.iRef := by
                unfold SameLock at sl3; rw [if_neg (by simp [emptySD, imax])] at sl3; exact sl3
              unfold SD.isShared
              refine ⟨by omega, hp3, ls.1⟩
            have key : ∀ m5 q5 d5, Loc cls (plus o p) m m5 q5 → m5 q5 = some d5 → d5.text = d3.text → d5.size = d3.size → 0 < d5.iRef →
                d5.buf d5.size = 0 → (cls = ansi → isUnicode d.enc = false → d5.enc = d.enc) →
                Post cls o m (match release m5 p with | none => Res.ub | some m6 => .ret .ok m6 q5)
                  (fun hr d' => hr = .ok ∧ SameLock d d' ∧ (d.buf d.size = 0 → d'.buf d'.size = 0) ∧
                    RemEnc cls d d' ∧ d'.text = d.text.take s ++ d.text.drop (s + C))
                  (fun _ => False) := by
              intro m5 q5 d5 L5 g5 t5 s5 i5 b5 en5
              have w5 := L5.wf
              rw [plus_comm] at w5
              have hq5 : q5 ≠ 0 := by
                intro e; subst e; have := w5.zero_eq g5; subst this; simp [emptySD] at s5; omega
              by_cases hpq : p = q5
              · -- would mean the temporary took the block over
                exfalso
                subst hpq
                have := L5.frame p (plus_pos o p)
                unfold obs at this; rw [g5, hd] at this; simp at this; omega
              · have hb5 : Bd (plus o q5) := by
                  intro a ha; have := hb2 q5 a ha; simp only [plus] at *; omega
                obtain ⟨m6, e6, w6, fr6, ne6, _⟩ := release_ok w5 hb5
                rw [e6]
                refine ⟨⟨w6, ?_⟩, d5, ?_, rfl, ?_, fun _ => b5, ⟨fun hh => absurd hsh hh, fun hc hu _ => en5 hc hu⟩, t5.trans t3⟩
                · intro a ha
                  rw [fr6 a (by simp only [plus]; omega), L5.frame a (by simp only [plus]; omega)]
                · rw [ne6 q5 (Ne.symm hpq)]; exact g5
                · unfold SameLock; unfold SD.isShared at hsh; rw [if_neg (by omega)]; exact i5
            by_cases hca : cls = ansi
            · rw [if_pos hca]
              have f3 : Fresh m3 q2 (some (q, j)) := by
                intro q' j' e; cases e
                refine ⟨q0, ?_⟩
                by_cases hqq : q = q2
                · exact .inr ⟨hqq, d3, g3, ns3.1⟩
                · obtain ⟨_, _, _, _, j', ej⟩ := K.shared (by simp [SD.isShared, emptySD, imax])
                  cases ej; exact absurd rfl hqq
              have SE := setEnc_ok (e := d.enc) L3.wf hb g3 f3
              unfold Post at SE
              split at SE
              · exact SE.elim
              · obtain ⟨_, _, _, hl, _⟩ := SE
                unfold SD.isLocked at hl; have := ns3.2.1; omega
              · rename_i hr m5 q5 heq
                obtain ⟨L5, d5, g5, sl5, cs⟩ := SE
                have i5 : 0 < d5.iRef := by
                  unfold SameLock at sl5; have := ns3.2.1; rw [if_neg (by omega)] at sl5; exact sl5
                rw [heq]
                refine key m5 q5 d5 (L3.trans L5) g5 ?_ ?_ i5 ?_ (fun hc hu => ?_)
                all_goals rcases cs with ⟨_, e, why⟩ | ⟨_, e, same⟩ | ⟨_, _, e1, e4, e2, e3, _⟩ | ⟨_, e, _⟩
                all_goals first | exact absurd e ns3.1 | skip
                · rw [e]
                · rw [e]
                · exact e1
                · rw [e]
                · rw [e]
                · exact e2
                · rw [e, s3]; exact z3
                · rw [e, s3]; exact z3
                · rw [e2, e3, s3]; exact z3
                · rcases why with h | h | h
                  · exact absurd hc h
                  · rw [hu] at h; cases h
                  · cases h
                · rw [if_neg (by simp [hc])] at same; rw [e]; exact same
                · exact e4
            · rw [if_neg hca]
              exact key m3 q2 d3 L3 g3 rfl rfl ns3.2.1 (by rw [s3]; exact z3) (fun hc => absurd hc hca)
        · rw [if_neg hsh]
          obtain ⟨hp, he, ho⟩ := shared_iff h hd hsh
          rcases lockBuffer_ok h hbo hd hf (cap := d.size - C) with ⟨e, _, ha'⟩ | ⟨e, hl, hc⟩ | ⟨e, es, _⟩ | ⟨m2, q2, d2, e2, L2, K⟩
          · exfalso; rcases ha' with hh | hh
            · exact hsh hh
            · omega
          · omega
          · exact absurd e hn
          · rw [e2]; dsimp only
            obtain ⟨x1, x2, x3, x4⟩ := K.excl hsh
            obtain ⟨xq, xc⟩ := x4 (by omega)
            rw [moveIn_ok K.nz K.get (by omega) (by omega)]; dsimp only
            obtain ⟨m3, d3, e3, L3, g3, s3, z3, k3, sl3, en3, cp3, ne3⟩ := fill_ok L2 K
              (fun k => if s ≤ k ∧ k < s + (d.size - C - s) then d2.buf (s + C + (k - s)) else d2.buf k) (d.size - C) K.room
            rw [e3]
            refine ⟨L3, d3, g3, rfl, sl3, fun _ => by rw [s3]; exact z3, ⟨fun _ => by rw [en3]; exact x2, fun _ _ _ => by rw [en3]; exact x2⟩, ?_⟩
            refine text_cut hC1 s3 ?_ ?_
            · intro k hk; rw [k3 k (by omega), if_neg (by omega)]; exact x3 k (by omega)
            · intro k hk1 hk2; rw [k3 k hk2, if_pos (by omega), x3 _ (by omega)]; congr 1; omega

/-! ### assignment and append of another String -/

theorem wf_plus0 {cls m o} (h : WF cls m o) : WF cls m (plus o 0) :=
  ⟨h.zero, fun a e ha hm => by rw [plus_ne _ ha]; exact h.blk a e ha hm,
    fun a ha hm => by rw [plus_ne _ ha]; exact h.dead a ha hm⟩

/-- `SetString(const StringBase&)` from another handle's block `a` -/
theorem assign_ok {cls m o p d a e al} (h : WF cls m (plus o p)) (hb2 : ∀ q, Bd (plus (plus o p) q)) (hd : m p = some d)
    (hf : Fresh m p al) (hoa : p = a ∨ 0 < o a) (he : m a = some e) :
    Post cls o m (assign cls m p a al)
      (fun hr d' => (p = a ∧ hr = .ok ∧ d' = d) ∨
        (¬ e.isLocked ∧ hr = .ok ∧ d'.text = e.text ∧ d'.enc = e.enc ∧ 0 < d'.iRef ∧ d'.size = e.size ∧ d'.buf = e.buf) ∨
        (e.isLocked ∧ SameLock d d' ∧ d'.buf d'.size = 0 ∧ ((hr = .ok ∧ d'.text = e.text) ∨ (hr = .oom ∧ al = none ∧ d'.text = []))))
      (fun d' => e.isLocked ∧ d.isLocked ∧ d.cap < e.size ∧ SameLock d d' ∧ d'.text = [] ∧ d'.buf d'.size = 0) := by
  have hb : Bd (plus o p) := by
    intro a ha; have := hb2 p a ha; simp only [plus] at *; omega
  have hbo : Bd o := by
    intro a ha; have := hb a ha; simp only [plus] at this; omega
  unfold assign
  by_cases hpa : p = a
  · rw [if_pos hpa]; exact ⟨Loc.refl h, d, hd, .inl ⟨hpa, rfl, rfl⟩⟩
  · rw [if_neg hpa, he]; dsimp only
    have hoa := hoa.resolve_left hpa
    by_cases hl : e.isLocked
    · rw [if_pos hl]
      have hes := h.size_le he
      have A := setStr_ok (src := .inn a 0 e.size) h hbo hd hf (.inr ⟨hoa, e, he, by omega⟩)
      have hch : (Ptr.inn a 0 e.size).chars m = e.text := by
        unfold Ptr.chars SD.text; simp only [Ptr.len]
        apply List.map_congr_left; intro k _; simp only [Ptr.ch]; rw [he]; dsimp only; rw [Nat.zero_add]
      unfold Post at *
      split at A
      · exact A
      · obtain ⟨L, d', g, x1, x2, x3, x4, x5⟩ := A
        exact ⟨L, d', g, hl, x1, x2, x3, x4, x5⟩
      · rw [hch] at A
        obtain ⟨L, d', g, x1, x2, _, x3⟩ := A
        exact ⟨L, d', g, .inr (.inr ⟨hl, x2, x1, x3⟩)⟩
    · rw [if_neg hl]
      obtain ⟨m1, e1, w1, ob1, ne1⟩ := addRef_ok h hb (show 0 < plus o p a by simp only [plus]; omega) he hl
      rw [e1]; dsimp only
      rw [plus_comm] at w1
      have hb1 : Bd (plus o a) := by
        intro x hx; have := hb2 a x hx; simp only [plus] at *; omega
      obtain ⟨m2, e2, w2, fr2, ne2, _⟩ := release_ok w1 hb1
      rw [e2]
      have pa : ∀ x, 0 < o x → obs m2 x = obs m x := fun x hx => by
        rw [fr2 x (by simp only [plus]; omega), ob1]
      obtain ⟨e', g', c1, c2, c3, c4, c5⟩ := obs_some (pa a hoa) he
      refine ⟨⟨w2, pa⟩, e', g', .inr (.inl ⟨hl, rfl, ?_, c4, ?_, c3, c2⟩)⟩
      · unfold SD.text; rw [c2, c3]
      · have hk : e.iRef ≠ 0 := by
          by_cases ha0 : a = 0
          · subst ha0; have := h.zero_eq he; subst this; simp [emptySD, imax]
          · have := h.blk a e ha0 he; omega
        unfold SD.isLocked at hl; omega

/-- the user's `LockBuffer` -/
theorem lock_post {cls m o p d cap al} (h : WF cls m (plus o p)) (hb : Bd o) (hd : m p = some d) (hf : Fresh m p al) :
    Post cls o m (lockBuffer cls m p cap al)
      (fun hr d' => (hr = .oom ∧ al = none ∧ d' = d) ∨
        (hr = .ok ∧ d.isShared ∧ cap = 0 ∧ d.size = 0 ∧ d' = emptySD cls) ∨
        (hr = .ok ∧ cap ≤ d'.cap ∧ d'.iRef = (if d.iRef < 0 then d.iRef - 1 else -1) ∧
          (¬ d.isShared → d'.text = d.text ∧ d'.enc = d.enc ∧ d'.buf d'.size = d.buf d.size) ∧
          (∀ k, k < d.size → d'.buf k = d.buf k) ∧ (d.isShared → d'.size = 0)))
      (fun d' => d.isLocked ∧ d.cap < cap ∧ d' = d) := by
  have hsz := h.size_le hd
  rcases lockBuffer_ok h hb hd hf (cap := cap) with ⟨e, ha, _⟩ | ⟨e, hl, hc⟩ | ⟨e, es, m2, e2, L2, hsh⟩ | ⟨m2, q, d2, e, L2, K⟩
  · rw [e]; exact ⟨Loc.refl h, d, hd, .inl ⟨rfl, ha, rfl⟩⟩
  · rw [e]; exact ⟨Loc.refl h, d, hd, hl, hc, rfl⟩
  · rw [e2]; exact ⟨L2, _, L2.wf.zero, .inr (.inl ⟨rfl, hsh, e, es, rfl⟩)⟩
  · rw [e]
    refine ⟨L2, d2, K.get, .inr (.inr ⟨rfl, K.room, K.ref, ?_, K.buf, fun hh => (K.shared hh).1⟩)⟩
    intro hh
    obtain ⟨x1, x2, x3, x4⟩ := K.excl hh
    exact ⟨text_congr x1 K.buf, x2, by rw [x1]; exact x3 _ hsz⟩

/-- a store through the pointer of a locked buffer -/
theorem write_post {cls m o p d k c} (h : WF cls m (plus o p)) (hd : m p = some d) (hl : d.isLocked) (hk : k ≤ d.cap) :
    Post cls o m (write m p k c)
      (fun hr d' => hr = .ok ∧ d'.iRef = d.iRef ∧ d'.enc = d.enc ∧ d'.text = d.text.set k c ∧
        (∀ j, d'.buf j = if j = k then c else d.buf j)) (fun _ => False) := by
  have p0 : p ≠ 0 := by
    intro e; subst e; have := h.zero_eq hd; subst this; simp [SD.isLocked, emptySD, imax] at hl
  have ls := locked_sole h hd p0 hl
  unfold write; rw [wr_ok p0 hd hk]
  refine ⟨loc_set h hd p0 ls.1 ls.2 (Or.inr hl), _, upd_eq _ _ _, rfl, rfl, rfl, ?_, fun _ => rfl⟩
  apply List.ext_getElem?
  intro j
  by_cases hj : j < d.size
  · rw [text_get _ _ (by dsimp only; omega)]
    dsimp only
    by_cases hjk : j = k
    · subst hjk; rw [if_pos rfl, List.getElem?_set_self (by rw [text_length]; exact hj)]
    · rw [if_neg hjk, List.getElem?_set_ne (Ne.symm hjk), text_get _ _ hj]
  · rw [List.getElem?_eq_none (by rw [text_length]; dsimp only; omega),
      List.getElem?_eq_none (by rw [List.length_set, text_length]; omega)]

theorem unlockN_post {cls m o p d n} (h : WF cls m (plus o p)) (hb : Bd o) (hd : m p = some d) :
    Post cls o m (unlockN m p n)
      (fun hr d' => hr = .ok ∧ ((p = 0 ∧ d' = d) ∨
        (d.isLocked ∧ d'.size = min n d.cap ∧ (∀ k, k < d'.size → d'.buf k = d.buf k) ∧ d'.buf d'.size = 0 ∧ d'.enc = d.enc ∧
          d'.iRef = (if d.iRef = -1 then 1 else d.iRef + 1))))
      (fun d' => ¬ d.isLocked ∧ d' = d) := by
  by_cases p0 : p = 0
  · subst p0
    have := h.zero_eq hd; subst this
    unfold unlockN; rw [hd]; dsimp only; rw [if_pos (by simp [SD.isReadOnly, emptySD])]
    exact ⟨Loc.refl h, _, hd, rfl, .inl ⟨rfl, rfl⟩⟩
  · by_cases hl : d.isLocked
    · obtain ⟨d2, e, L2, s2, c2, en2, i2, b2, k2⟩ := unlockN_ok n h p0 hd hl
      rw [e]
      exact ⟨L2, d2, upd_eq _ _ _, rfl, .inr ⟨hl, s2, k2, b2, en2, i2⟩⟩
    · unfold unlockN; rw [hd]; dsimp only; rw [if_neg (not_readonly h hb hd p0), if_pos hl]
      exact ⟨Loc.refl h, _, hd, hl, rfl⟩

theorem unlock_post {cls m o p d} (h : WF cls m (plus o p)) (hb : Bd o) (hd : m p = some d) :
    Post cls o m (unlock m p)
      (fun hr d' => hr = .ok ∧ ((p = 0 ∧ d' = d) ∨
        (d.isLocked ∧ d' = { d with iRef := if d.iRef = -1 then 1 else d.iRef + 1 })))
      (fun d' => ¬ d.isLocked ∧ d' = d) := by
  by_cases p0 : p = 0
  · subst p0
    have := h.zero_eq hd; subst this
    unfold unlock; rw [hd]; dsimp only; rw [if_pos (by simp [SD.isReadOnly, emptySD])]
    exact ⟨Loc.refl h, _, hd, rfl, .inl ⟨rfl, rfl⟩⟩
  · by_cases hl : d.isLocked
    · obtain ⟨e, L2⟩ := unlock_ok h p0 hd hl
      rw [e]
      exact ⟨L2, _, upd_eq _ _ _, rfl, .inr ⟨hl, rfl⟩⟩
    · unfold unlock; rw [hd]; dsimp only; rw [if_neg (not_readonly h hb hd p0)]
      unfold doUnlock; rw [hd]; dsimp only; rw [if_pos (by unfold SD.isLocked at hl; omega)]
      exact ⟨Loc.refl h, _, hd, hl, rfl⟩

end Verif.StrHeap
