import Verif.Arr.Lemmas

/-! What each member function of one Array does to its block and to the others. -/

namespace Verif.Arr

variable {α : Type}

/-- outcome of a member function: never undefined, invariant kept, other handles unaffected, and a statement about the block the handle has afterwards -/
def Post (T : Ty α) (o : Nat → Nat) (m : Mem α) (r : Res α) (Q : Hr → Blk α → Prop) (Th : Blk α → Prop) : Prop :=
  match r with
  | .ub => False
  | .thr m' p' => Loc T o m m' p' ∧ ∃ d', m' p' = some d' ∧ Th d'
  | .ret hr m' p' => Loc T o m m' p' ∧ ∃ d', m' p' = some d' ∧ Q hr d'

/-- same elements, same number of locks -/
def Kept (d d' : Blk α) : Prop := d'.content = d.content ∧ d'.locks = d.locks

/-- the usual outcome: the elements become `cs` and the number of locks `n`, or memory was not available and nothing changed -/
def Does (al : Al) (d : Blk α) (cs : List (Slot α)) (n : Nat) (hr : Hr) (d' : Blk α) : Prop :=
  (hr = .ok ∧ d'.content = cs ∧ d'.locks = n) ∨ (hr = .oom ∧ al = none ∧ Kept d d')

/-- an exception is only thrown for a locked array, which is left as it was -/
def Refuses (d d' : Blk α) : Prop := d.isLocked ∧ Kept d d'

theorem Kept.refl (d : Blk α) : Kept d d := ⟨rfl, rfl⟩

theorem locks_shared {d : Blk α} (h : d.isShared) : d.locks = 0 := by unfold Blk.isShared at h; unfold Blk.locks; omega

theorem locks_empty : (emptyBlk : Blk α).locks = 0 := locks_shared emptyBlk_shared

theorem Post.mono {T : Ty α} {o m r Q Q' Th Th'} (h : Post T o m r Q Th) (hq : ∀ hr d, Q hr d → Q' hr d) (ht : ∀ d, Th d → Th' d) : Post T o m r Q' Th' := by
  unfold Post at *
  split at h
  · exact h
  · obtain ⟨a, d, b, c⟩ := h; exact ⟨a, d, b, ht d c⟩
  · obtain ⟨a, d, b, c⟩ := h; exact ⟨a, d, b, hq _ d c⟩

/-- unlocking restores the references -/
theorem unlock_lock {d : Blk α} {i : Int} (hi : d.iRef = lockRef i) (he : i = 1 ∨ i < 0 ∨ 1 < i) :
    unlockBlk d = some { d with iRef := if i < 0 then i else 1 } := by
  unfold unlockBlk
  have hn := lockRef_neg i
  rw [if_neg (by unfold Blk.isReadOnly imax; omega), if_neg (by omega)]
  congr 2
  rw [hi]; unfold lockRef
  by_cases h : i < 0
  · rw [if_pos h, if_pos h, if_neg (by omega)]; omega
  · rw [if_neg h, if_neg h, if_pos rfl]

theorem ref_cases {T : Ty α} {m o p d} (h : WF T m (plus o p)) (hd : m p = some d) : d.iRef = 1 ∨ d.iRef < 0 ∨ 1 < d.iRef := by
  by_cases hp : p = 0
  · subst hp; rw [h.zero_eq hd]; simp [emptyBlk, imax]
  · rcases h.cases hd hp with e | e
    · have := e.1; unfold Excl at this; omega
    · have := e.1; unfold Blk.isShared at this; omega

theorem locks_restored {d d' : Blk α} (h : d'.iRef = if d.iRef < 0 then d.iRef else 1) : d'.locks = d.locks := by
  unfold Blk.locks; rw [h]; split <;> omega

/-- change of the acquired block, then `Unlock` -/
theorem finish_ok {T : Ty α} {o m p d cs cs' r m1 q d1 f} (h : WF T m (plus o p)) (hd : m p = some d) (A : Acq T o m p d cs r m1 q d1) (E : Edits T f d1 cs') :
    ∃ m' d', finish m1 q f = .ret .ok m' q ∧ Loc T o m m' q ∧ m' q = some d' ∧ d'.content = cs' ∧ d'.locks = d.locks := by
  obtain ⟨d2, e, g2, c2, i2, l2⟩ := E
  have hu := unlock_lock (d := d2) (i := d.iRef) (by rw [i2, A.ref]) (ref_cases h hd)
  have gl : Good T { d2 with iRef := if d.iRef < 0 then d.iRef else 1 } := ⟨g2.le, g2.live, g2.rest⟩
  have ex : Excl { d2 with iRef := if d.iRef < 0 then d.iRef else 1 } := by
    unfold Excl; dsimp only; split
    · right; assumption
    · left; rfl
  refine ⟨_, _, ?_, A.loc.trans (loc_set A.loc.wf A.nz A.oth gl ex), upd_eq _ _ _, c2, locks_restored rfl⟩
  unfold finish; rw [A.get]; dsimp only; rw [e]; dsimp only
  rw [if_neg A.nz, hu]

/-- lock, change, unlock -/
theorem withLock_ok {T : Ty α} {o m p d need grow al f cs} (h : WF T m (plus o p)) (hb : Bd o) (hd : m p = some d) (hf : Fresh T m p al)
    (hE : ∀ m1 q d1, Acq T o m p d d.content (if d.isShared then need else grow) m1 q d1 → Edits T (f m1 q) d1 cs)
    (h0 : need = 0 → d.size = 0 → d.isShared → ∀ m1, Loc T o m m1 0 → ∃ d', f m1 0 emptyBlk = some d' ∧ d'.size = 0 ∧ cs = []) :
    Post T o m (withLock T m p d need grow al f) (Does al d cs d.locks) (Refuses d) := by
  unfold withLock
  rcases acquire_ok (need := need) (grow := grow) h hb hd hf with ⟨e, ha⟩ | ⟨e, hl, _⟩ | ⟨n0, s0, hs, m1, e, L⟩ | ⟨m1, q, d1, e, A⟩
  · rw [e]; exact ⟨Loc.refl h, d, hd, .inr ⟨rfl, ha, Kept.refl d⟩⟩
  · rw [e]; exact ⟨Loc.refl h, d, hd, hl, Kept.refl d⟩
  · rw [e]; dsimp only
    obtain ⟨d', e1, z, hc⟩ := h0 n0 s0 hs m1 L
    have hz := L.wf.zero
    have e2 : finish m1 0 (f m1 0) = .ret .ok m1 0 := by
      unfold finish; rw [hz]; dsimp only; rw [e1]; dsimp only; rw [if_pos rfl, if_pos z]
    rw [e2]
    refine ⟨L, _, hz, .inl ⟨rfl, ?_, ?_⟩⟩
    · rw [hc]; rfl
    · rw [locks_empty, locks_shared hs]
  · rw [e]; dsimp only
    obtain ⟨m', d', e2, L, g, c, l⟩ := finish_ok h hd A (hE m1 q d1 A)
    rw [e2]
    exact ⟨L, d', g, .inl ⟨rfl, c, l⟩⟩

/-- the capacity asked for is enough -/
theorem newCapacity_ge (c n : Nat) : n ≤ newCapacity c n := by unfold newCapacity; split; omega; split <;> omega

theorem newCapacity_keep {c n : Nat} (h : n ≤ c) : newCapacity c n = c := by unfold newCapacity; rw [if_pos h]

theorem withInc_ok {T : Ty α} {o m p d inc al f cs} (h : WF T m (plus o p)) (hb : Bd o) (hd : m p = some d) (hf : Fresh T m p al) (hne : d.size + inc ≠ 0)
    (hE : ∀ m1 q d1 r, Acq T o m p d d.content r m1 q d1 → d.size + inc ≤ d1.buf.length → (¬ d.isShared → d.size + inc ≤ d.buf.length → q = p ∧ d1.buf = d.buf) → Edits T (f m1 q) d1 cs) :
    Post T o m (withInc T m p inc al f) (Does al d cs d.locks) (Refuses d) := by
  unfold withInc; rw [hd]; dsimp only
  refine withLock_ok h hb hd hf (fun m1 q d1 A => ?_) (fun n0 => absurd n0 hne)
  refine hE m1 q d1 _ A ?_ ?_
  · have := A.room
    have := newCapacity_ge d.buf.length (d.size + inc)
    by_cases hs : d.isShared
    · rw [if_pos hs] at *; assumption
    · rw [if_neg hs] at *; omega
  · intro hs hr
    refine A.same hs ?_
    rw [if_neg hs, newCapacity_keep hr]; exact Nat.le_refl _

theorem acq_size {T : Ty α} {o m p d r m1 q d1} (h : WF T m (plus o p)) (hd : m p = some d) (A : Acq T o m p d d.content r m1 q d1) : d1.size = d.size := by
  have := content_length A.good
  rw [A.content, content_length (h.good hd)] at this
  exact this.symm

/-! ### arguments -/

/-- a source range the function may read throughout: outside memory, or inside a block another handle keeps -/
def SrcOk (T : Ty α) (o : Nat → Nat) (m : Mem α) : Ptr α → Prop
  | .ext _ => True
  | .inn a off n => 0 < o a ∧ ∃ e, m a = some e ∧ off + n ≤ e.size

/-- the elements a source designates -/
def Ptr.vals (m : Mem α) : Ptr α → List (Slot α)
  | .ext l => l.map .val
  | .inn a off n =>
    match m a with
    | none => []
    | some e => (e.content.drop off).take n

def ItemOk (o : Nat → Nat) (m : Mem α) : Item α → Prop
  | .ext _ => True
  | .inn a off => 0 < o a ∧ ∃ e, m a = some e ∧ off < e.size

def Item.val (m : Mem α) : Item α → Slot α
  | .ext v => .val v
  | .inn a off => ((m a).bind fun e => e.content[off]?).getD .raw

/-- another handle's block still has its buffer and size -/
theorem frame_blk {m m' : Mem α} {a : Nat} {e : Blk α} (h : obs m' a = obs m a) (he : m a = some e) : ∃ e', m' a = some e' ∧ e'.size = e.size ∧ e'.buf = e.buf := by
  unfold obs at h; rw [he] at h
  cases h2 : m' a with
  | none => rw [h2] at h; simp at h
  | some e' => rw [h2] at h; simp at h; exact ⟨e', rfl, h.2.1, h.2.2⟩

theorem vals_length {T : Ty α} {m c} (h : WF T m c) {o src} (hs : SrcOk T o m src) : (src.vals m).length = src.len := by
  cases src with
  | ext l => simp [Ptr.vals, Ptr.len]
  | inn a off n =>
    obtain ⟨_, e, he, hr⟩ := hs
    have := content_length (h.good he)
    simp only [Ptr.vals, he, Ptr.len, List.length_take, List.length_drop]; omega

theorem vals_alive {T : Ty α} {m c} (h : WF T m c) {o src} (hs : SrcOk T o m src) : ∀ v ∈ src.vals m, v.alive = true := by
  intro v hv
  cases src with
  | ext l => simp only [Ptr.vals, List.mem_map] at hv; obtain ⟨a, _, rfl⟩ := hv; rfl
  | inn a off n =>
    obtain ⟨_, e, he, hr⟩ := hs
    simp only [Ptr.vals, he] at hv
    exact content_alive (h.good he) v (List.mem_of_mem_drop (List.mem_of_mem_take hv))

/-- reading the source after the own block was acquired -/
theorem read_src {T : Ty α} {o m m1 q c} (h : WF T m c) (fr : ∀ a, 0 < o a → obs m1 a = obs m a) (hq : o q = 0) {src} (hs : SrcOk T o m src) (b : Buf α) :
    src.read m1 q b = some (src.vals m) ∧ src.clash q = false := by
  cases src with
  | ext l => exact ⟨rfl, rfl⟩
  | inn a off n =>
    obtain ⟨ho, e, he, hr⟩ := hs
    have haq : a ≠ q := by intro e; subst e; omega
    obtain ⟨e', he', hs', hb'⟩ := frame_blk (fr a ho) he
    have gl := (h.good he).le
    constructor
    · simp only [Ptr.read, if_neg haq, he', Option.map_some, Ptr.vals, he, hb']
      rw [if_neg (by omega)]
      congr 1
      unfold Blk.content
      rw [List.drop_take, List.take_take, Nat.min_eq_left (by omega)]
    · simp [Ptr.clash, haq]

theorem read_item {T : Ty α} {o m m1 q c} (h : WF T m c) (fr : ∀ a, 0 < o a → obs m1 a = obs m a) (hq : o q = 0) {v : Item α} (hs : ItemOk o m v) (b : Buf α) :
    v.read m1 q b = some (v.val m) ∧ (v.val m).alive = true := by
  cases v with
  | ext l => exact ⟨rfl, rfl⟩
  | inn a off =>
    obtain ⟨ho, e, he, hr⟩ := hs
    have haq : a ≠ q := by intro e; subst e; omega
    obtain ⟨e', he', hs', hb'⟩ := frame_blk (fr a ho) he
    have hg := h.good he
    have hlt : off < e.buf.length := by have := hg.le; omega
    have hv : (Item.inn a off).val m = e.buf[off] := by
      unfold Item.val; simp only [he, Option.bind_some]; rw [content_get hr, List.getElem?_eq_getElem hlt]; rfl
    rw [hv]
    refine ⟨?_, hg.live off _ hr (List.getElem?_eq_getElem hlt)⟩
    simp only [Item.read, if_neg haq, he', Option.map_some, hb']
    exact List.getElem?_eq_getElem hlt

/-! ### the functions -/

theorem clear_ok {T : Ty α} {o m p d} (h : WF T m (plus o p)) (hb : Bd o) (hd : m p = some d) :
    Post T o m (clear T m p) (fun hr d' => hr = .ok ∧ d'.content = [] ∧ d'.locks = d.locks) (Refuses d) := by
  unfold clear; rw [hd]; dsimp only
  have hg := h.good hd
  by_cases hs : d.isShared
  · rw [if_pos hs]
    obtain ⟨m', e, w, fr, _⟩ := release_ok h hb
    rw [e]
    exact ⟨⟨wf_plus0 w, fr⟩, _, w.zero, rfl, rfl, by rw [locks_empty, locks_shared hs]⟩
  · rw [if_neg hs]
    obtain ⟨hp, he, ho⟩ := excl_of h hd hs
    by_cases hz : d.size = 0
    · rw [if_neg (by omega)]
      exact ⟨Loc.refl h, d, hd, rfl, by unfold Blk.content; rw [hz]; rfl, rfl⟩
    · rw [if_pos hz]
      by_cases hl : d.isLocked
      · rw [if_pos hl]; exact ⟨Loc.refl h, d, hd, hl, Kept.refl d⟩
      · rw [if_neg hl]
        obtain ⟨d', e, g', c', i', _⟩ := edit_truncate (n := 0) hg (Nat.zero_le _)
        dsimp only at e; rw [Nat.sub_zero] at e
        cases e2 : desN T d.buf 0 d.size with
        | none => rw [e2] at e; simp at e
        | some b =>
          rw [e2] at e; simp only [Option.map_some, Option.some.injEq] at e
          dsimp only
          rw [e]
          refine ⟨loc_set h hp ho g' (by unfold Excl at *; rw [i']; exact he), d', upd_eq _ _ _, rfl, c', ?_⟩
          unfold Blk.locks; rw [i']

theorem setArr_ok {T : Ty α} {o m p d src al} (h : WF T m (plus o p)) (hb : Bd o) (hd : m p = some d) (hf : Fresh T m p al) (hs : SrcOk T o m src) :
    Post T o m (setArr T m p src al) (Does al d (src.vals m) d.locks) (Refuses d) := by
  unfold setArr; rw [hd]; dsimp only
  have hg := h.good hd
  have vl := vals_length h hs
  have va := vals_alive h hs
  -- after any acquisition
  have done : ∀ {cs r m1 q d1}, Acq T o m p d cs r m1 q d1 → src.len ≤ d1.buf.length →
      Post T o m (finish m1 q (setEdit T src m1 q)) (Does al d (src.vals m) d.locks) (Refuses d) := by
    intro cs r m1 q d1 A hr
    obtain ⟨rd, cl⟩ := read_src h A.loc.frame A.oth hs d1.buf
    obtain ⟨m', d', e2, L, g, c, l⟩ := finish_ok h hd A (edit_setArr A.good cl rd vl hr va)
    rw [e2]
    exact ⟨L, d', g, .inl ⟨rfl, c, l⟩⟩
  by_cases hsh : d.isShared
  · rw [if_pos hsh]
    by_cases hz : src.len = 0
    · have ea : alloc m src.len al = some (m, 0) := by unfold alloc; rw [if_pos (round16_zero.2 hz)]
      rw [ea]; dsimp only
      obtain ⟨m', e1, w, fr, _⟩ := release_ok h hb
      rw [e1]; dsimp only
      rw [lockAt_zero w.zero]; dsimp only
      have L : Loc T o m m' 0 := ⟨wf_plus0 w, fr⟩
      have ve : src.vals m = [] := by rw [← List.length_eq_zero_iff]; omega
      have hclash : src.clash 0 = false := by
        cases src with
        | ext l => rfl
        | inn a off n => simp only [Ptr.len] at hz; subst hz; simp [Ptr.clash]
      have hread : ∃ vs, src.read m' 0 (emptyBlk : Blk α).buf = some vs ∧ vs = [] := by
        cases src with
        | ext l =>
          refine ⟨_, rfl, ?_⟩
          exact ve
        | inn a off n =>
          simp only [Ptr.len] at hz; subst hz
          obtain ⟨ho, e, he, hr⟩ := hs
          obtain ⟨e', he', hs', hb'⟩ := frame_blk (fr a ho) he
          have gl := (h.good he).le
          by_cases ha : a = 0
          · subst ha
            have := h.zero_eq he
            subst this
            have : off = 0 := by simp [emptyBlk] at hr; omega
            subst this
            exact ⟨[], by simp [Ptr.read, emptyBlk], rfl⟩
          · refine ⟨[], ?_, rfl⟩
            simp only [Ptr.read, if_neg ha, he', Option.map_some]
            rw [if_neg (by rw [hb']; omega), List.take_zero]
      obtain ⟨vs, hread, hvs⟩ := hread
      have e2 : finish m' 0 (setEdit T src m' 0) = .ret .ok m' 0 := by
        unfold finish; rw [w.zero]; dsimp only
        have : setEdit T src m' 0 emptyBlk = some { (emptyBlk : Blk α) with size := src.len } := by
          unfold setEdit; rw [hclash]; simp only [Bool.false_eq_true, if_false, hread, hvs, List.take_nil, asgL]
          rw [if_pos (by omega), hz]; rfl
        rw [this]; dsimp only; rw [if_pos rfl, if_pos hz]
      rw [e2]
      exact ⟨L, _, w.zero, .inl ⟨rfl, by rw [ve]; rfl, by rw [locks_empty, locks_shared hsh]⟩⟩
    · cases al with
      | none =>
        have ea : alloc m src.len none = none := by unfold alloc; rw [if_neg (fun hh => hz (round16_zero.1 hh))]
        rw [ea]; exact ⟨Loc.refl h, d, hd, .inr ⟨rfl, rfl, Kept.refl d⟩⟩
      | some q =>
        obtain ⟨q0, qn⟩ := fresh_none hf hd hsh
        have ea : alloc m src.len (some q) = some (upd m q (some ⟨1, 0, List.replicate (round16 src.len) .raw⟩), q) := by
          unfold alloc; rw [if_neg (fun hh => hz (round16_zero.1 hh))]
        rw [ea]; dsimp only
        have gb : Good T ⟨1, 0, List.replicate (round16 src.len) .raw⟩ :=
          ⟨Nat.zero_le _, (fun j x hj => absurd hj (Nat.not_lt_zero j)), (fun _ j _ h2 => by
            have h2 : j < (List.replicate (round16 src.len) (Slot.raw : Slot α)).length := h2
            rw [List.length_replicate] at h2; show (List.replicate _ _)[j]? = _; rw [List.getElem?_replicate, if_pos h2])⟩
        obtain ⟨m2, e1, m', d1, e2, A⟩ := acq_fresh h hb hd hsh q0 qn gb
        rw [e1]; dsimp only
        rw [e2]; dsimp only
        refine done A ?_
        have := A.room
        have := round16_ge src.len
        rw [List.length_replicate] at *; omega
  · rw [if_neg hsh]
    by_cases hl : d.isLocked ∧ (src.len < d.size ∨ d.buf.length < src.len)
    · rw [if_pos hl]; exact ⟨Loc.refl h, d, hd, hl.1, Kept.refl d⟩
    · rw [if_neg hl]
      unfold realloc
      by_cases hr : src.len ≤ d.buf.length
      · rw [if_pos hr]; dsimp only
        obtain ⟨m', d1, e, A⟩ := acq_same (n := src.len) h hd hsh hr
        rw [e]; dsimp only
        exact done A A.room
      · rw [if_neg hr, if_neg (fun hh => hl ⟨hh, .inr (by omega)⟩)]
        cases al with
        | none => exact ⟨Loc.refl h, d, hd, .inr ⟨rfl, rfl, Kept.refl d⟩⟩
        | some q =>
          dsimp only
          obtain ⟨m', e, d1, A⟩ := acq_grow h hb hd hsh (fun hh => hl ⟨hh, .inr (by omega)⟩) hf (n := src.len) (by omega)
          rw [e]; dsimp only
          exact done A A.room

theorem reserve_ok {T : Ty α} {o m p d n al} (h : WF T m (plus o p)) (hb : Bd o) (hd : m p = some d) (hf : Fresh T m p al) :
    Post T o m (reserve T m p n al) (Does al d d.content d.locks) (Refuses d) := by
  unfold reserve; rw [hd]; dsimp only
  refine withLock_ok h hb hd hf (fun m1 q d1 A => ?_) (fun _ s0 _ m1 _ => ⟨_, rfl, rfl, ?_⟩)
  · exact ⟨d1, rfl, A.good, A.content, rfl, rfl⟩
  · unfold Blk.content; rw [s0]; rfl

theorem setItem_ok {T : Ty α} {o m p d k v al} (h : WF T m (plus o p)) (hb : Bd o) (hd : m p = some d) (hf : Fresh T m p al)
    (hv : ItemOk o m v ∨ ∃ off, v = .inn p off ∧ off < d.size ∧ ¬ d.isShared) :
    Post T o m (setItem T m p k v al) (fun hr d' => (d.size ≤ k ∧ hr = .bounds ∧ Kept d d') ∨ (k < d.size ∧ Does al d (d.content.set k (v.val m)) d.locks hr d')) (Refuses d) := by
  unfold setItem; rw [hd]; dsimp only
  by_cases hk : d.size ≤ k
  · rw [if_pos hk]; exact ⟨Loc.refl h, d, hd, .inl ⟨hk, rfl, Kept.refl d⟩⟩
  · rw [if_neg hk]
    refine Post.mono (withInc_ok h hb hd hf (by omega) (fun m1 q d1 r A hr same => ?_)) (fun hr d' hd => .inr ⟨by omega, hd⟩) (fun _ h => h)
    have hsz := acq_size h hd A
    have rd : v.read m1 q d1.buf = some (v.val m) ∧ (v.val m).alive = true := by
      rcases hv with hv | ⟨off, rfl, ho, hs⟩
      · exact read_item h A.loc.frame A.oth hv d1.buf
      · have hg := h.good hd
        have hlt : off < d.buf.length := by have := hg.le; omega
        obtain ⟨hq, hbuf⟩ := same hs (by have := hg.le; omega)
        have hv : (Item.inn p off).val m = d.buf[off] := by
          unfold Item.val; simp only [hd, Option.bind_some]; rw [content_get ho, List.getElem?_eq_getElem hlt]; rfl
        rw [hv]
        refine ⟨?_, hg.live off _ ho (List.getElem?_eq_getElem hlt)⟩
        unfold Item.read; simp only; rw [if_pos hq.symm, hbuf]; exact List.getElem?_eq_getElem hlt
    obtain ⟨rd, al⟩ := rd
    obtain ⟨d2, e, r⟩ := edit_set1 (k := k) (v := v.val m) A.good (by omega) al
    refine ⟨d2, ?_, ?_⟩
    · dsimp only; rw [rd]; exact e
    · rw [A.content] at r; exact r

theorem add_ok {T : Ty α} {o m p d v al} (h : WF T m (plus o p)) (hb : Bd o) (hd : m p = some d) (hf : Fresh T m p al) :
    Post T o m (add T m p v al) (Does al d (d.content ++ [.val v]) d.locks) (Refuses d) := by
  unfold add
  refine withInc_ok h hb hd hf (by omega) (fun m1 q d1 r A hr _ => ?_)
  have hsz := acq_size h hd A
  obtain ⟨d2, e, r⟩ := edit_append (vs := [.val v]) A.good (by simp; omega) (by simp [Slot.alive])
  refine ⟨d2, ?_, by rw [A.content] at r; exact r⟩
  rw [← e]; simp only [consL, List.length_singleton]
  cases cons1 T d1.buf d1.size (.val v) <;> rfl

theorem addN_ok {T : Ty α} {o m p d src al} (h : WF T m (plus o p)) (hb : Bd o) (hd : m p = some d) (hf : Fresh T m p al) (hs : SrcOk T o m src) :
    Post T o m (addN T m p src al) (Does al d (d.content ++ src.vals m) d.locks) (Refuses d) := by
  have vl := vals_length h hs
  unfold addN
  by_cases hz : src.len = 0
  · rw [if_pos hz]
    refine ⟨Loc.refl h, d, hd, .inl ⟨rfl, ?_, rfl⟩⟩
    rw [show src.vals m = [] by rw [← List.length_eq_zero_iff]; omega, List.append_nil]
  · rw [if_neg hz]
    refine withInc_ok h hb hd hf (by omega) (fun m1 q d1 r A hr _ => ?_)
    have hsz := acq_size h hd A
    obtain ⟨rd, _⟩ := read_src h A.loc.frame A.oth hs d1.buf
    obtain ⟨d2, e, r⟩ := edit_append (vs := src.vals m) A.good (by omega) (vals_alive h hs)
    refine ⟨d2, ?_, by rw [A.content] at r; exact r⟩
    rw [← e]; dsimp only; rw [rd, vl]

/-- the elements after `Insert` -/
def inserted (T : Ty α) (c : List (Slot α)) (k : Nat) (x : Slot α) : List (Slot α) :=
  if T.triv ∨ k = c.length then c.take k ++ [x] ++ c.drop k else insertMess c k x

theorem insert_ok {T : Ty α} {o m p d k v al} (h : WF T m (plus o p)) (hb : Bd o) (hd : m p = some d) (hf : Fresh T m p al) (hv : ItemOk o m v) :
    Post T o m (insert T m p k v al) (fun hr d' => (d.size < k ∧ hr = .bounds ∧ Kept d d') ∨ (k ≤ d.size ∧ Does al d (inserted T d.content k (v.val m)) d.locks hr d')) (Refuses d) := by
  unfold insert; rw [hd]; dsimp only
  by_cases hk : d.size < k
  · rw [if_pos hk]; exact ⟨Loc.refl h, d, hd, .inl ⟨hk, rfl, Kept.refl d⟩⟩
  · rw [if_neg hk]
    refine Post.mono (withInc_ok h hb hd hf (by omega) (fun m1 q d1 r A hr _ => ?_)) (fun hr d' hd => .inr ⟨by omega, hd⟩) (fun _ h => h)
    have hsz := acq_size h hd A
    have E := edit_insert (k := k) (v := v) (m := m1) (q := q) (x := v.val m) A.good (by omega) (by omega) (fun b => (read_item h A.loc.frame A.oth hv b).1)
      (read_item h A.loc.frame A.oth hv d1.buf).2
    rw [A.content, ← content_length A.good, A.content] at E
    exact E

/-- the elements after removing `n` from `k` on -/
def removed (T : Ty α) (c : List (Slot α)) (k n : Nat) : List (Slot α) :=
  if T.triv then c.take k ++ c.drop (k + n) else removeMess c k n

theorem remove_ok {T : Ty α} {o m p d k n al} (h : WF T m (plus o p)) (hb : Bd o) (hd : m p = some d) (hf : Fresh T m p al) :
    Post T o m (remove T m p k n al) (fun hr d' =>
      (n = 0 ∨ d.size ≤ k → hr = .ok ∧ Kept d d') ∧ (k = 0 → d.size ≤ n → hr = .ok ∧ d'.content = [] ∧ d'.locks = d.locks) ∧
      (0 < n → k < d.size → ¬ (k = 0 ∧ d.size ≤ n) → Does al d (removed T d.content k (min n (d.size - k))) d.locks hr d')) (Refuses d) := by
  unfold remove; rw [hd]; dsimp only
  by_cases hn : n = 0
  · rw [if_pos hn]
    refine ⟨Loc.refl h, d, hd, fun _ => ⟨rfl, Kept.refl d⟩, fun _ h2 => ⟨rfl, ?_, rfl⟩, fun h2 => by omega⟩
    unfold Blk.content; rw [show d.size = 0 by omega]; rfl
  · rw [if_neg hn]
    by_cases hk : d.size ≤ k
    · rw [if_pos hk]
      refine ⟨Loc.refl h, d, hd, fun _ => ⟨rfl, Kept.refl d⟩, fun h1 h2 => ⟨rfl, ?_, rfl⟩, fun h2 => by omega⟩
      unfold Blk.content; rw [show d.size = 0 by omega]; rfl
    · rw [if_neg hk]
      have hc : (if n < d.size - k then n else d.size - k) = min n (d.size - k) := by split <;> omega
      rw [hc]
      by_cases hall : min n (d.size - k) = d.size
      · rw [if_pos hall]
        refine Post.mono (clear_ok h hb hd) (fun hr d' hx => ⟨fun h1 => by omega, fun _ _ => hx, fun _ _ h3 => absurd ⟨by omega, by omega⟩ h3⟩) (fun _ h => h)
      · rw [if_neg hall]
        refine Post.mono (withInc_ok h hb hd hf (by omega) (fun m1 q d1 r A hr _ => ?_)) (fun hr d' hd => ⟨fun h1 => by omega, fun h1 h2 => by omega, fun _ _ _ => hd⟩) (fun _ h => h)
        have hsz := acq_size h hd A
        have E := edit_remove (k := k) (n := min n (d.size - k)) A.good (by omega) (by omega)
        rw [A.content] at E
        exact E

theorem lockSize_ok {T : Ty α} {o m p d n al} (h : WF T m (plus o p)) (hb : Bd o) (hd : m p = some d) (hf : Fresh T m p al) :
    Post T o m (lockSize T m p n al)
      (fun hr d' => (hr = .oom ∧ al = none ∧ Kept d d') ∨ (hr = .ok ∧ d'.content = d.content.take n ++ List.replicate (n - d.size) (.val T.z) ∧
        (d'.locks = d.locks + 1 ∨ (n = 0 ∧ d.size = 0 ∧ d.isShared ∧ d'.locks = 0)))) (Refuses d) := by
  unfold lockSize; rw [hd]; dsimp only
  have hg := h.good hd
  rcases acquire_ok (need := n) (grow := n) h hb hd hf with ⟨e, ha⟩ | ⟨e, hl, _⟩ | ⟨n0, s0, hs, m1, e, L⟩ | ⟨m1, q, d1, e, A⟩
  · rw [e]; exact ⟨Loc.refl h, d, hd, .inl ⟨rfl, ha, Kept.refl d⟩⟩
  · rw [e]; exact ⟨Loc.refl h, d, hd, hl, Kept.refl d⟩
  · rw [e]; dsimp only
    have hz := L.wf.zero
    rw [hz]; dsimp only
    rw [if_neg (by simp [emptyBlk])]
    have e1 : sizeEdit T n (emptyBlk : Blk α) = some emptyBlk := by
      unfold sizeEdit; rw [n0]; rfl
    rw [e1]; dsimp only; rw [if_pos rfl, if_pos (by rfl)]
    refine ⟨L, _, hz, .inr ⟨rfl, ?_, .inr ⟨n0, s0, hs, locks_empty⟩⟩⟩
    rw [n0, Nat.zero_sub]; simp [Blk.content, emptyBlk]
  · rw [e]; dsimp only
    rw [A.get]; dsimp only
    have hsz := acq_size h hd A
    have hrm : n ≤ d1.buf.length := by have := A.room; split at this <;> exact this
    have hrc := ref_cases h hd
    have hlk : d1.locks = d.locks + 1 := by unfold Blk.locks; rw [A.ref]; unfold lockRef; split <;> omega
    by_cases hbad : ¬ d1.size ≤ n ∧ 1 < d1.locks
    · rw [if_pos hbad]
      have hu := unlock_lock (d := d1) (i := d.iRef) A.ref hrc
      rw [hu]; dsimp only
      rw [if_neg A.nz]
      have gl : Good T { d1 with iRef := if d.iRef < 0 then d.iRef else 1 } := ⟨A.good.le, A.good.live, A.good.rest⟩
      have ex : Excl { d1 with iRef := if d.iRef < 0 then d.iRef else 1 } := by
        unfold Excl; dsimp only; split
        · right; assumption
        · left; rfl
      refine ⟨A.loc.trans (loc_set A.loc.wf A.nz A.oth gl ex), _, upd_eq _ _ _, ?_, A.content, locks_restored rfl⟩
      have := hbad.2
      unfold Blk.isLocked; unfold Blk.locks at this hlk; omega
    · rw [if_neg hbad]
      obtain ⟨d2, e2, g2, c2, i2, l2⟩ := edit_size (n := n) A.good hrm
      rw [e2]; dsimp only
      rw [if_neg A.nz]
      have hn := lockRef_neg d.iRef
      refine ⟨A.loc.trans (loc_set A.loc.wf A.nz A.oth g2 (Or.inr (by rw [i2, A.ref]; exact hn))), d2, upd_eq _ _ _, .inr ⟨rfl, by rw [c2, A.content, hsz], .inl ?_⟩⟩
      rw [← hlk]; unfold Blk.locks; rw [i2]

theorem unlock_ok {T : Ty α} {o m p d} (h : WF T m (plus o p)) (hd : m p = some d) :
    Post T o m (unlock m p) (fun hr d' => hr = .ok ∧ d'.content = d.content ∧ d.isLocked ∧ d'.locks + 1 = d.locks) (fun d' => ¬ d.isLocked ∧ Kept d d') := by
  unfold unlock; rw [hd]; dsimp only
  by_cases hl : d.isLocked
  · rw [if_neg (by simpa using hl)]
    have hl' : d.iRef < 0 := hl
    have hs : ¬ d.isShared := by unfold Blk.isShared; omega
    obtain ⟨hp, he, ho⟩ := excl_of h hd hs
    have hg := h.good hd
    have e : unlockBlk d = some { d with iRef := if d.iRef = -1 then 1 else d.iRef + 1 } := by
      unfold unlockBlk; rw [if_neg (by unfold Blk.isReadOnly imax; omega), if_neg (by omega)]
    rw [e]; dsimp only
    refine ⟨loc_set h hp ho ⟨hg.le, hg.live, hg.rest⟩ ?_, _, upd_eq _ _ _, rfl, rfl, hl, ?_⟩
    · unfold Excl; dsimp only; split <;> omega
    · unfold Blk.locks; dsimp only; split <;> omega
  · rw [if_pos hl]; exact ⟨Loc.refl h, d, hd, hl, Kept.refl d⟩

theorem resize_ok {T : Ty α} {o m p d n al} (h : WF T m (plus o p)) (hb : Bd o) (hd : m p = some d) (hf : Fresh T m p al) :
    Post T o m (resize T m p n al) (Does al d (d.content.take n ++ List.replicate (n - d.size) (.val T.z)) d.locks) (Refuses d) := by
  unfold resize
  by_cases hn : n = 0
  · rw [if_pos hn]
    refine Post.mono (clear_ok h hb hd) (fun hr d' hx => .inl ⟨hx.1, ?_, hx.2.2⟩) (fun _ h => h)
    rw [hx.2.1, hn, Nat.zero_sub]; simp
  · rw [if_neg hn]
    have A := lockSize_ok (n := n) h hb hd hf
    generalize lockSize T m p n al = r at A
    cases r with
    | ub => exact A.elim
    | thr m' p' => exact A
    | ret hr m' p' =>
      obtain ⟨L, d', g, hx⟩ := A
      rcases hx with ⟨rfl, ha, hk⟩ | ⟨rfl, hc, hlk⟩
      · exact ⟨L, d', g, .inr ⟨rfl, ha, hk⟩⟩
      · dsimp only
        have hlk : d'.locks = d.locks + 1 := by
          rcases hlk with h | h
          · exact h
          · exact absurd h.1 hn
        have B := unlock_ok L.wf g
        generalize unlock m' p' = r2 at B
        cases r2 with
        | ub => exact B.elim
        | thr m2 p2 =>
          obtain ⟨_, _, _, hb', _⟩ := B
          exfalso; unfold Blk.isLocked at hb'; unfold Blk.locks at hlk; omega
        | ret hr m2 p2 =>
          obtain ⟨L2, d2, g2, rfl, c2, _, l2⟩ := B
          exact ⟨L.trans L2, d2, g2, .inl ⟨rfl, by rw [c2, hc], by omega⟩⟩

theorem write_ok {T : Ty α} {o m p d k v} (h : WF T m (plus o p)) (hd : m p = some d) (hl : d.isLocked) (hk : k < d.size) :
    Post T o m (write T m p k v) (fun hr d' => hr = .ok ∧ d'.content = d.content.set k (.val v) ∧ d'.locks = d.locks) (fun _ => False) := by
  have hl' : d.iRef < 0 := hl
  have hs : ¬ d.isShared := by unfold Blk.isShared; omega
  obtain ⟨hp, he, ho⟩ := excl_of h hd hs
  unfold write; rw [hd]; dsimp only
  rw [if_neg (by omega)]
  obtain ⟨d2, e, g2, c2, i2, _⟩ := edit_set1 (k := k) (v := .val v) (h.good hd) hk rfl
  dsimp only at e
  cases e2 : asg1 T d.buf k (.val v) with
  | none => rw [e2] at e; simp at e
  | some b =>
    rw [e2] at e; simp only [Option.map_some, Option.some.injEq] at e
    dsimp only; rw [e]
    refine ⟨loc_set h hp ho g2 (by unfold Excl at *; rw [i2]; exact he), d2, upd_eq _ _ _, rfl, c2, ?_⟩
    unfold Blk.locks; rw [i2]

/-- assignment from another handle (one of the `o`) -/
theorem assign_ok {T : Ty α} {o m p d a e al} (h : WF T m (plus o p)) (hB : Bd (plus (plus o p) a)) (hd : m p = some d) (hf : Fresh T m p al) (ha : 0 < o a ∨ a = p) (he : m a = some e)
    (hv : d.isLocked → e.isLocked ∨ a = p) :
    Post T o m (assign T m p a al) (Does al d e.content d.locks) (Refuses d) := by
  have hbo : Bd o := fun x hx => by have := hB x hx; simp only [plus] at this; omega
  have hb : Bd (plus o p) := fun x hx => by have := hB x hx; simp only [plus] at this ⊢; omega
  have hb2 : Bd (plus o a) := fun x hx => by have := hB x hx; simp only [plus] at this ⊢; omega
  unfold assign
  by_cases hpa : p = a
  · subst hpa; rw [if_pos rfl]
    rw [hd] at he; cases he
    exact ⟨Loc.refl h, d, hd, .inl ⟨rfl, rfl, rfl⟩⟩
  · rw [if_neg hpa, he]; dsimp only
    have hoa : 0 < o a := by
      rcases ha with h | h
      · exact h
      · exact absurd h.symm hpa
    by_cases hl : e.isLocked
    · rw [if_pos hl]
      have A := setArr_ok (src := .inn a 0 e.size) h hbo hd hf ⟨hoa, e, he, by omega⟩
      have : (Ptr.inn a 0 e.size).vals m = e.content := by
        simp only [Ptr.vals, he, List.drop_zero]; rw [← content_length (h.good he), List.take_length]
      rwa [this] at A
    · rw [if_neg hl]
      have hld : ¬ d.isLocked := by
        intro hh
        rcases hv hh with h | h
        · exact hl h
        · exact hpa h.symm
      obtain ⟨m1, e1, w1, ob1, ne1⟩ := addRef_ok h hb (a := a) (by simp only [plus]; omega) he hl
      rw [e1]; dsimp only
      rw [ne1 p hpa, hd]; dsimp only
      rw [if_neg hld]
      rw [plus_comm] at w1
      obtain ⟨m2, e2, w2, fr2, ne2, _⟩ := release_ok w1 hb2
      rw [e2]; dsimp only
      have hap : a ≠ p := fun h => hpa h.symm
      have fr : ∀ x, 0 < o x → obs m2 x = obs m x := fun x hx => by
        rw [fr2 x (by simp only [plus]; omega), ob1 x]
      obtain ⟨e', he', hs', hb'⟩ := frame_blk (fr a hoa) he
      refine ⟨⟨w2, fr⟩, e', he', .inl ⟨rfl, by unfold Blk.content; rw [hs', hb'], ?_⟩⟩
      have h1 := fr a hoa
      unfold obs at h1; rw [he, he'] at h1
      simp only [Option.map_some, Option.some.injEq, Prod.mk.injEq] at h1
      unfold Blk.isLocked at hl hld
      unfold Blk.locks; omega

end Verif.Arr
