import Verif.Arr.Effect

/-! A locked array keeps its storage. -/

namespace Verif.Arr

variable {α : Type}

/-! ### no element operation changes the size of the buffer -/

theorem cons1_len {T : Ty α} {b b' : Buf α} {k v} (h : cons1 T b k v = some b') : b'.length = b.length := by
  unfold cons1 at h
  split at h
  · cases h
  · split at h
    · cases h; exact List.length_set
    · cases h

theorem asg1_len {T : Ty α} {b b' : Buf α} {k v} (h : asg1 T b k v = some b') : b'.length = b.length := by
  unfold asg1 at h
  split at h
  · cases h
  · split at h
    · cases h; exact List.length_set
    · cases h

theorem des1_len {T : Ty α} {b b' : Buf α} {k} (h : des1 T b k = some b') : b'.length = b.length := by
  unfold des1 at h
  split at h
  · cases h; rfl
  · split at h
    · cases h
    · split at h
      · cases h; exact List.length_set
      · cases h

theorem consL_len {T : Ty α} {b b' : Buf α} {k vs} (h : consL T b k vs = some b') : b'.length = b.length := by
  induction vs generalizing b k with
  | nil => cases h; rfl
  | cons v vs ih =>
    unfold consL at h
    split at h
    · cases h
    · rename_i b1 e; rw [ih h, cons1_len e]

theorem asgL_len {T : Ty α} {b b' : Buf α} {k vs} (h : asgL T b k vs = some b') : b'.length = b.length := by
  induction vs generalizing b k with
  | nil => cases h; rfl
  | cons v vs ih =>
    unfold asgL at h
    split at h
    · cases h
    · rename_i b1 e; rw [ih h, asg1_len e]

theorem desN_len {T : Ty α} {b b' : Buf α} {k n} (h : desN T b k n = some b') : b'.length = b.length := by
  induction n generalizing b k with
  | zero => cases h; rfl
  | succ n ih =>
    unfold desN at h
    split at h
    · cases h
    · rename_i b1 e; rw [ih h, des1_len e]

theorem mv1_len {T : Ty α} {b b' : Buf α} {i j} (h : mv1 T b i j = some b') : b'.length = b.length := by
  unfold mv1 at h
  split at h
  · cases h
  · rw [asg1_len h, List.length_set]

theorem mvFwd_len {T : Ty α} {b b' : Buf α} {i j n} (h : mvFwd T b i j n = some b') : b'.length = b.length := by
  induction n generalizing b i j with
  | zero => cases h; rfl
  | succ n ih =>
    unfold mvFwd at h
    split at h
    · cases h
    · rename_i b1 e; rw [ih h, mv1_len e]

theorem mvBwd_len {T : Ty α} {b b' : Buf α} {i j n} (h : mvBwd T b i j n = some b') : b'.length = b.length := by
  induction n generalizing b i j with
  | zero => cases h; rfl
  | succ n ih =>
    unfold mvBwd at h
    split at h
    · cases h
    · rename_i b1 e; rw [ih h, mv1_len e]

theorem move_len {T : Ty α} {b b' : Buf α} {i j n} (h : move T b i j n = some b') : b'.length = b.length := by
  unfold move at h
  split at h
  · split at h
    · cases h
    · exact asgL_len h
  · split at h
    · cases h; rfl
    · split at h
      · exact mvBwd_len h
      · exact mvFwd_len h

theorem map_len {b : Option (Buf α)} {f : Buf α → Blk α} {n : Nat} {d' : Blk α} (hf : ∀ b, (f b).buf = b) (hb : ∀ b', b = some b' → b'.length = n) (h : b.map f = some d') : d'.buf.length = n := by
  cases b with
  | none => cases h
  | some b => cases h; rw [hf]; exact hb b rfl

/-- the change `f` keeps the buffer's size -/
def Fixed (f : Blk α → Option (Blk α)) : Prop := ∀ d d', f d = some d' → d'.buf.length = d.buf.length

theorem fixed_setEdit (T : Ty α) (src m q) : Fixed (setEdit T src m q) := by
  intro d d' h
  unfold setEdit at h
  split at h
  · cases h
  · split at h
    · cases h
    · split at h
      · cases h
      · rename_i b e
        split at h
        · cases h
        · rename_i b2 e2
          cases h
          dsimp only
          have := asgL_len e
          split at e2
          · rw [desN_len e2, this]
          · rw [consL_len e2, this]

theorem fixed_sizeEdit (T : Ty α) (n) : Fixed (sizeEdit T n) := by
  intro d d' h
  unfold sizeEdit at h
  split at h
  · cases h
  · rename_i b e
    cases h
    dsimp only
    split at e
    · exact consL_len e
    · exact desN_len e

theorem fixed_insertEdit (T : Ty α) (k v m q) : Fixed (insertEdit T k v m q) := by
  intro d d' h
  unfold insertEdit at h
  split at h
  · split at h
    · cases h
    · exact map_len (fun _ => rfl) (fun b' e => cons1_len e) h
  · split at h
    · cases h
    · split at h
      · cases h
      · rename_i b e
        split at h
        · cases h
        · rename_i b2 e2
          split at h
          · cases h
          · refine map_len (fun _ => rfl) (fun b' e3 => ?_) h
            rw [asg1_len e3, move_len e2, cons1_len e]
            split
            · rfl
            · exact List.length_set

theorem fixed_removeEdit (T : Ty α) (k n) : Fixed (removeEdit T k n) := by
  intro d d' h
  unfold removeEdit at h
  split at h
  · cases h
  · rename_i b e
    exact map_len (fun _ => rfl) (fun b' e3 => by rw [desN_len e3, move_len e]) h

/-! ### the member functions -/

/-- the handle still refers to block `p`, whose buffer has `n` places -/
def Stay (p n : Nat) : Res α → Prop
  | .ub => True
  | .thr m q => q = p ∧ ∃ d, m p = some d ∧ d.buf.length = n
  | .ret _ m q => q = p ∧ ∃ d, m p = some d ∧ d.buf.length = n

theorem locked_not_shared {d : Blk α} (h : d.isLocked) : ¬ d.isShared := by
  unfold Blk.isLocked at h; unfold Blk.isShared; omega

theorem unlockBlk_len {d d' : Blk α} (h : unlockBlk d = some d') : d'.buf = d.buf := by
  unfold unlockBlk at h
  split at h
  · cases h; rfl
  · split at h
    · cases h
    · cases h; rfl

theorem lockBlk_len {d d' : Blk α} (h : lockBlk d = some d') : d'.buf = d.buf := by
  unfold lockBlk at h
  split at h
  · cases h; rfl
  · split at h
    · cases h
    · cases h; rfl

theorem stay_lockAt {m : Mem α} {p : Nat} {d : Blk α} (hd : m p = some d) : Stay p d.buf.length (lockAt m p) := by
  unfold lockAt; rw [hd]; dsimp only
  split
  · exact ⟨rfl, d, hd, rfl⟩
  · rename_i d' e
    refine ⟨rfl, ?_⟩
    split
    · exact ⟨d, hd, rfl⟩
    · exact ⟨d', by simp [upd], by rw [lockBlk_len e]⟩

theorem stay_acquire {T : Ty α} {m : Mem α} {p : Nat} {d : Blk α} {a b al} (hd : m p = some d) (hl : d.isLocked) : Stay p d.buf.length (acquire T m p d a b al) := by
  unfold acquire
  rw [if_neg (locked_not_shared hl)]
  split
  · rename_i h
    unfold realloc
    rw [if_neg (by omega), if_pos hl]
    exact ⟨rfl, d, hd, rfl⟩
  · exact stay_lockAt hd

theorem stay_finish {m : Mem α} {p n : Nat} {d : Blk α} {f} (hf : Fixed f) (hd : m p = some d) (hn : d.buf.length = n) : Stay p n (finish m p f) := by
  unfold finish; rw [hd]; dsimp only
  split
  · trivial
  · rename_i d' e
    have := hf d d' e
    split
    · split
      · exact ⟨rfl, d, hd, hn⟩
      · trivial
    · split
      · exact ⟨rfl, d', by simp [upd], by rw [this, hn]⟩
      · rename_i d'' e2
        exact ⟨rfl, d'', by simp [upd], by rw [unlockBlk_len e2, this, hn]⟩

theorem stay_withLock {T : Ty α} {m : Mem α} {p : Nat} {d : Blk α} {a b al f} (hf : ∀ m q, Fixed (f m q)) (hd : m p = some d) (hl : d.isLocked) : Stay p d.buf.length (withLock T m p d a b al f) := by
  have A := stay_acquire (T := T) (a := a) (b := b) (al := al) hd hl
  unfold withLock
  split
  · rename_i m1 q e
    rw [e] at A
    obtain ⟨rfl, d1, h1, h2⟩ := A
    exact stay_finish (hf m1 q) h1 h2
  · exact A

theorem stay_withInc {T : Ty α} {m : Mem α} {p : Nat} {d : Blk α} {inc al f} (hf : ∀ m q, Fixed (f m q)) (hd : m p = some d) (hl : d.isLocked) : Stay p d.buf.length (withInc T m p inc al f) := by
  unfold withInc; rw [hd]; exact stay_withLock hf hd hl

theorem stay_self {m : Mem α} {p : Nat} {d : Blk α} {hr} (hd : m p = some d) : Stay p d.buf.length (.ret hr m p) := ⟨rfl, d, hd, rfl⟩

theorem stay_clear {T : Ty α} {m : Mem α} {p : Nat} {d : Blk α} (hd : m p = some d) (hl : d.isLocked) : Stay p d.buf.length (clear T m p) := by
  unfold clear; rw [hd]; dsimp only
  rw [if_neg (locked_not_shared hl)]
  by_cases h0 : d.size ≠ 0
  · rw [if_pos h0, if_pos hl]; exact ⟨rfl, d, hd, rfl⟩
  · rw [if_neg h0]; exact stay_self hd

theorem stay_setArr {T : Ty α} {m : Mem α} {p : Nat} {d : Blk α} {src al} (hd : m p = some d) (hl : d.isLocked) : Stay p d.buf.length (setArr T m p src al) := by
  unfold setArr; rw [hd]; dsimp only
  rw [if_neg (locked_not_shared hl)]
  split
  · exact ⟨rfl, d, hd, rfl⟩
  · rename_i h
    unfold realloc
    rw [if_pos (Nat.le_of_not_lt fun h' => h ⟨hl, .inr h'⟩)]
    dsimp only
    have A := stay_lockAt hd
    split
    · rename_i m1 q e
      rw [e] at A
      obtain ⟨rfl, d1, h1, h2⟩ := A
      exact stay_finish (fixed_setEdit T src m1 q) h1 h2
    · exact A

theorem stay_lockSize {T : Ty α} {m : Mem α} {p : Nat} {d : Blk α} {n al} (hd : m p = some d) (hl : d.isLocked) : Stay p d.buf.length (lockSize T m p n al) := by
  have A := stay_acquire (T := T) (a := n) (b := n) (al := al) hd hl
  unfold lockSize; rw [hd]; dsimp only
  split
  · rename_i m1 q e
    rw [e] at A
    obtain ⟨rfl, d1, h1, h2⟩ := A
    rw [h1]; dsimp only
    split
    · split
      · exact ⟨rfl, d1, h1, h2⟩
      · rename_i d2 e2
        refine ⟨rfl, ?_⟩
        split
        · exact ⟨d1, h1, h2⟩
        · exact ⟨d2, by simp [upd], by rw [unlockBlk_len e2, h2]⟩
    · split
      · trivial
      · rename_i d2 e2
        split
        · split
          · exact ⟨rfl, d1, h1, h2⟩
          · trivial
        · exact ⟨rfl, d2, by simp [upd], by rw [fixed_sizeEdit T n _ _ e2, h2]⟩
  · exact A

theorem stay_unlock {m : Mem α} {p n : Nat} {d : Blk α} (hd : m p = some d) (hn : d.buf.length = n) : Stay p n (unlock m p) := by
  unfold unlock; rw [hd]; dsimp only
  split
  · exact ⟨rfl, d, hd, hn⟩
  · split
    · exact ⟨rfl, d, hd, hn⟩
    · rename_i d' e; exact ⟨rfl, d', by simp [upd], by rw [unlockBlk_len e, hn]⟩

theorem stay_resize {T : Ty α} {m : Mem α} {p : Nat} {d : Blk α} {n al} (hd : m p = some d) (hl : d.isLocked) : Stay p d.buf.length (resize T m p n al) := by
  unfold resize
  split
  · exact stay_clear hd hl
  · have A := stay_lockSize (T := T) (n := n) (al := al) hd hl
    split
    · rename_i m1 q e
      rw [e] at A
      obtain ⟨rfl, d1, h1, h2⟩ := A
      exact stay_unlock h1 h2
    · exact A

theorem stay_write {T : Ty α} {m : Mem α} {p : Nat} {d : Blk α} {k v} (hd : m p = some d) : Stay p d.buf.length (write T m p k v) := by
  unfold write; rw [hd]; dsimp only
  split
  · trivial
  · split
    · trivial
    · rename_i b e; exact ⟨rfl, _, by simp [upd]; rfl, asg1_len e⟩

theorem stay_setItem {T : Ty α} {m : Mem α} {p : Nat} {d : Blk α} {k v al} (hd : m p = some d) (hl : d.isLocked) : Stay p d.buf.length (setItem T m p k v al) := by
  unfold setItem; rw [hd]; dsimp only
  split
  · exact stay_self hd
  · refine stay_withInc (fun m q d d' h => ?_) hd hl
    split at h
    · cases h
    · exact map_len (fun _ => rfl) (fun b' e => asg1_len e) h

theorem stay_add {T : Ty α} {m : Mem α} {p : Nat} {d : Blk α} {v al} (hd : m p = some d) (hl : d.isLocked) : Stay p d.buf.length (add T m p v al) :=
  stay_withInc (fun _ _ _ _ h => map_len (fun _ => rfl) (fun _ e => cons1_len e) h) hd hl

theorem stay_addN {T : Ty α} {m : Mem α} {p : Nat} {d : Blk α} {src al} (hd : m p = some d) (hl : d.isLocked) : Stay p d.buf.length (addN T m p src al) := by
  unfold addN
  split
  · exact stay_self hd
  · refine stay_withInc (fun m q d d' h => ?_) hd hl
    split at h
    · cases h
    · exact map_len (fun _ => rfl) (fun b' e => consL_len e) h

theorem stay_insert {T : Ty α} {m : Mem α} {p : Nat} {d : Blk α} {k v al} (hd : m p = some d) (hl : d.isLocked) : Stay p d.buf.length (insert T m p k v al) := by
  unfold insert; rw [hd]; dsimp only
  split
  · exact stay_self hd
  · exact stay_withInc (fixed_insertEdit T k v) hd hl

theorem stay_remove {T : Ty α} {m : Mem α} {p : Nat} {d : Blk α} {k n al} (hd : m p = some d) (hl : d.isLocked) : Stay p d.buf.length (remove T m p k n al) := by
  unfold remove; rw [hd]; dsimp only
  split
  · exact stay_self hd
  · split
    · exact stay_self hd
    · generalize (if n < d.size - k then n else d.size - k) = c
      split
      · exact stay_clear hd hl
      · exact stay_withInc (fun _ _ => fixed_removeEdit T k c) hd hl

theorem stay_reserve {T : Ty α} {m : Mem α} {p : Nat} {d : Blk α} {n al} (hd : m p = some d) (hl : d.isLocked) : Stay p d.buf.length (reserve T m p n al) := by
  unfold reserve; rw [hd]
  exact stay_withLock (fun _ _ _ _ h => by cases h; rfl) hd hl

theorem stay_assign {T : Ty α} {m : Mem α} {p a : Nat} {d e : Blk α} {al} (hd : m p = some d) (hl : d.isLocked) (he : m a = some e) (hle : e.isLocked) : Stay p d.buf.length (assign T m p a al) := by
  unfold assign
  split
  · exact stay_self hd
  · rw [he]; dsimp only; rw [if_pos hle]; exact stay_setArr hd hl

theorem onHandle_stay {s s' : St α} {i p : Nat} {d : Blk α} {f} (hp : s.hs[i]? = some (some p)) (h : Stay p d.buf.length (f s.mem p)) (hs : (onHandle s i f).st = some s') :
    s'.hs[i]? = s.hs[i]? ∧ ∃ d', blk s' i = some d' ∧ d'.buf.length = d.buf.length := by
  unfold onHandle at hs; rw [hp] at hs; dsimp only at hs
  split at hs
  · cases hs
  · rename_i m q e
    rw [e] at h
    obtain ⟨rfl, d', h1, h2⟩ := h
    cases hs
    have : (s.hs.set i (some q))[i]? = some (some q) := List.getElem?_set_self (lt_of_get hp)
    exact ⟨by dsimp only; rw [this, hp], d', by unfold blk; dsimp only; rw [this]; exact h1, h2⟩
  · rename_i hr m q e
    rw [e] at h
    obtain ⟨rfl, d', h1, h2⟩ := h
    cases hs
    have : (s.hs.set i (some q))[i]? = some (some q) := List.getElem?_set_self (lt_of_get hp)
    exact ⟨by dsimp only; rw [this, hp], d', by unfold blk; dsimp only; rw [this]; exact h1, h2⟩

/-- a member function of a locked array leaves the handle on the same block with the same capacity -/
theorem member_stay {T : Ty α} {s s' : St α} {op : Op α} {i : Nat} {d : Blk α} (hv : Valid T s op) (hi : op.self? = some i) (hd : blk s i = some d) (hl : d.isLocked)
    (hs : (step T s op).st = some s') : s'.hs[i]? = s.hs[i]? ∧ ∃ d', blk s' i = some d' ∧ d'.buf.length = d.buf.length := by
  obtain ⟨p, hp, hm⟩ := live_of_blk hd
  have fn : ∀ {o : Option (Ptr α)} {f : Ptr α → Mem α → Nat → Res α}, (∀ q, Stay p d.buf.length (f q s.mem p)) →
      (match o with | none => Out.ub | some q => onHandle s i (f q)).st = some s' → s'.hs[i]? = s.hs[i]? ∧ ∃ d', blk s' i = some d' ∧ d'.buf.length = d.buf.length := by
    intro o f hf h
    cases o with
    | none => cases h
    | some q => exact onHandle_stay (f := f q) hp (hf q) h
  have fi : ∀ {o : Option (Item α)} {f : Item α → Mem α → Nat → Res α}, (∀ q, Stay p d.buf.length (f q s.mem p)) →
      (match o with | none => Out.ub | some q => onHandle s i (f q)).st = some s' → s'.hs[i]? = s.hs[i]? ∧ ∃ d', blk s' i = some d' ∧ d'.buf.length = d.buf.length := by
    intro o f hf h
    cases o with
    | none => cases h
    | some q => exact onHandle_stay (f := f q) hp (hf q) h
  cases op with
  | new => cases hi
  | copy _ _ => cases hi
  | moveNew _ => cases hi
  | moveAssign _ _ => cases hi
  | del _ => cases hi
  | clear i => cases hi; exact onHandle_stay hp (stay_clear hm hl) hs
  | setArr i src al => cases hi; exact fn (f := fun q m p => setArr T m p q al) (fun q => stay_setArr hm hl) hs
  | assign i j al =>
    cases hi
    obtain ⟨e, he, hle⟩ := hv.2.2.2 ⟨d, hd, hl⟩
    obtain ⟨a, hj, hm2⟩ := live_of_blk he
    simp only [step, hj] at hs
    exact onHandle_stay hp (stay_assign hm hl hm2 hle) hs
  | reserve i n al => cases hi; exact onHandle_stay (f := fun m p => reserve T m p n al) hp (stay_reserve hm hl) hs
  | resize i n al => cases hi; exact onHandle_stay (f := fun m p => resize T m p n al) hp (stay_resize hm hl) hs
  | lock i n al => cases hi; exact onHandle_stay (f := fun m p => lockSize T m p n al) hp (stay_lockSize hm hl) hs
  | unlock i => cases hi; exact onHandle_stay hp (stay_unlock hm rfl) hs
  | write i k v => cases hi; exact onHandle_stay (f := fun m p => write T m p k v) hp (stay_write hm) hs
  | setItem i k v al => cases hi; exact fi (f := fun q m p => setItem T m p k q al) (fun q => stay_setItem hm hl) hs
  | add i v al => cases hi; exact onHandle_stay (f := fun m p => add T m p v al) hp (stay_add hm hl) hs
  | addN i src al => cases hi; exact fn (f := fun q m p => addN T m p q al) (fun q => stay_addN hm hl) hs
  | insert i k v al => cases hi; exact fi (f := fun q m p => insert T m p k q al) (fun q => stay_insert hm hl) hs
  | remove i k n al => cases hi; exact onHandle_stay (f := fun m p => remove T m p k n al) hp (stay_remove hm hl) hs

end Verif.Arr
