import Verif.Arr.Model

/-! What the element loops of ConstructorPolicy do to a buffer. -/

namespace Verif.Arr

variable {α : Type}

/-- `vs` written over the buffer from position `k` on -/
def splice (b : Buf α) (k : Nat) (vs : List (Slot α)) : Buf α := b.take k ++ vs ++ b.drop (k + vs.length)

theorem splice_length {b : Buf α} {k vs} (h : k + vs.length ≤ b.length) : (splice b k vs).length = b.length := by
  simp only [splice, List.length_append, List.length_take, List.length_drop]; omega

theorem splice_get {b : Buf α} {k vs} (h : k + vs.length ≤ b.length) (j : Nat) :
    (splice b k vs)[j]? = if j < k then b[j]? else if j < k + vs.length then vs[j - k]? else b[j]? := by
  unfold splice
  have hk : (b.take k).length = k := by rw [List.length_take]; omega
  split
  · rename_i hj
    rw [List.append_assoc, List.getElem?_append_left (by omega), List.getElem?_take_of_lt hj]
  · split
    · rename_i h1 h2
      rw [List.append_assoc, List.getElem?_append_right (by omega), hk, List.getElem?_append_left (by omega)]
    · rename_i h1 h2
      rw [List.getElem?_append_right (by simp only [List.length_append, hk]; omega), List.getElem?_drop]
      simp only [List.length_append, hk]
      congr 1; omega

theorem splice_nil (b : Buf α) (k : Nat) : splice b k [] = b := by simp [splice]

theorem splice_cons {b : Buf α} {k v vs} (h : k + (vs.length + 1) ≤ b.length) : splice (b.set k v) (k + 1) vs = splice b k (v :: vs) := by
  apply List.ext_getElem?
  intro j
  rw [splice_get (by rw [List.length_set]; omega), splice_get (by simpa using h)]
  rw [List.getElem?_set]
  simp only [List.length_cons]
  by_cases h1 : j < k
  · rw [if_pos (by omega), if_neg (by omega), if_pos h1]
  · by_cases h2 : j = k
    · subst h2
      rw [if_pos (by omega), if_pos rfl, if_pos (by omega), if_neg h1, if_pos (by omega)]; simp
    · rw [if_neg (show ¬ j < k + 1 by omega), if_neg h1, if_neg (show ¬ k = j by omega)]
      by_cases h3 : j < k + 1 + vs.length
      · rw [if_pos h3, if_pos (by omega)]
        obtain ⟨i, hi⟩ : ∃ i, j - k = i + 1 := ⟨j - k - 1, by omega⟩
        rw [hi, List.getElem?_cons_succ]; congr 1; omega
      · rw [if_neg h3, if_neg (by omega)]

theorem cons1_eq {T : Ty α} {b : Buf α} {k v} (h : k < b.length) (hn : T.triv = false → b[k]? = some .raw ∧ v.alive = true) :
    cons1 T b k v = some (b.set k v) := by
  unfold cons1
  rw [List.getElem?_eq_getElem h]; dsimp only
  rw [if_pos]
  cases ht : T.triv with
  | true => rfl
  | false =>
    obtain ⟨h1, h2⟩ := hn ht
    rw [List.getElem?_eq_getElem h] at h1; cases h1' : b[k] with
    | raw => rw [h2]; rfl
    | moved => rw [h1'] at h1; cases h1
    | val a => rw [h1'] at h1; cases h1

theorem asg1_eq {T : Ty α} {b : Buf α} {k v} (h : k < b.length) (hn : T.triv = false → (∀ x, b[k]? = some x → x.alive = true) ∧ v.alive = true) :
    asg1 T b k v = some (b.set k v) := by
  unfold asg1
  rw [List.getElem?_eq_getElem h]; dsimp only
  rw [if_pos]
  cases ht : T.triv with
  | true => rfl
  | false =>
    obtain ⟨h1, h2⟩ := hn ht
    rw [h1 _ (List.getElem?_eq_getElem h), h2]; rfl

theorem consL_eq {T : Ty α} {b : Buf α} {k vs} (h : k + vs.length ≤ b.length)
    (hn : T.triv = false → (∀ j, k ≤ j → j < k + vs.length → b[j]? = some .raw) ∧ ∀ v ∈ vs, v.alive = true) :
    consL T b k vs = some (splice b k vs) := by
  induction vs generalizing b k with
  | nil => rw [splice_nil]; rfl
  | cons v vs ih =>
    simp only [List.length_cons] at h hn
    unfold consL
    rw [cons1_eq (by omega) (fun ht => ⟨(hn ht).1 k (by omega) (by omega), (hn ht).2 v (by simp)⟩)]; dsimp only
    rw [ih (by rw [List.length_set]; omega), splice_cons h]
    intro ht
    refine ⟨fun j h1 h2 => ?_, fun w hw => (hn ht).2 w (by simp [hw])⟩
    rw [List.getElem?_set_ne (by omega)]; exact (hn ht).1 j (by omega) (by omega)

theorem asgL_eq {T : Ty α} {b : Buf α} {k vs} (h : k + vs.length ≤ b.length)
    (hn : T.triv = false → (∀ j x, k ≤ j → j < k + vs.length → b[j]? = some x → x.alive = true) ∧ ∀ v ∈ vs, v.alive = true) :
    asgL T b k vs = some (splice b k vs) := by
  induction vs generalizing b k with
  | nil => rw [splice_nil]; rfl
  | cons v vs ih =>
    simp only [List.length_cons] at h hn
    unfold asgL
    rw [asg1_eq (by omega) (fun ht => ⟨fun x hx => (hn ht).1 k x (by omega) (by omega) hx, (hn ht).2 v (by simp)⟩)]; dsimp only
    rw [ih (by rw [List.length_set]; omega), splice_cons h]
    intro ht
    refine ⟨fun j x h1 h2 hx => ?_, fun w hw => (hn ht).2 w (by simp [hw])⟩
    rw [List.getElem?_set_ne (by omega)] at hx; exact (hn ht).1 j x (by omega) (by omega) hx

/-- destroyed elements -/
def wipe (T : Ty α) (b : Buf α) (k n : Nat) : Buf α := if T.triv then b else splice b k (List.replicate n .raw)

theorem desN_eq {T : Ty α} {b : Buf α} {k n} (h : k + n ≤ b.length) (hn : T.triv = false → ∀ j x, k ≤ j → j < k + n → b[j]? = some x → x.alive = true) :
    desN T b k n = some (wipe T b k n) := by
  unfold wipe
  cases ht : T.triv with
  | true =>
    rw [if_pos rfl]
    clear h hn
    induction n generalizing k with
    | zero => rfl
    | succ n ih => unfold desN; unfold des1; rw [ht, if_pos rfl]; exact ih
  | false =>
    rw [if_neg (by simp)]
    replace hn := hn ht
    induction n generalizing b k with
    | zero => simp only [List.replicate_zero]; rw [splice_nil]; rfl
    | succ n ih =>
      unfold desN; unfold des1; rw [ht, if_neg (by simp), List.getElem?_eq_getElem (by omega)]; dsimp only
      rw [if_pos (hn k _ (by omega) (by omega) (List.getElem?_eq_getElem (by omega)))]; dsimp only
      rw [ih (by rw [List.length_set]; omega), List.replicate_succ, splice_cons (by rw [List.length_replicate]; omega)]
      intro j x h1 h2 hx
      rw [List.getElem?_set_ne (by omega)] at hx; exact hn j x (by omega) (by omega) hx

theorem wipe_length {T : Ty α} {b : Buf α} {k n} (h : k + n ≤ b.length) : (wipe T b k n).length = b.length := by
  unfold wipe; split
  · rfl
  · exact splice_length (by simpa using h)

theorem wipe_get {T : Ty α} {b : Buf α} {k n} (h : k + n ≤ b.length) (j : Nat) :
    (wipe T b k n)[j]? = if k ≤ j ∧ j < k + n ∧ T.triv = false then some .raw else b[j]? := by
  unfold wipe; split
  · rename_i ht; rw [if_neg (by simp [ht])]
  · rename_i ht
    have ht : T.triv = false := by simpa using ht
    rw [splice_get (by simpa using h), List.length_replicate]
    by_cases h1 : j < k
    · rw [if_pos h1, if_neg (by omega)]
    · rw [if_neg h1]
      by_cases h2 : j < k + n
      · rw [if_pos h2, if_pos ⟨by omega, h2, ht⟩, List.getElem?_replicate, if_pos (by omega)]
      · rw [if_neg h2, if_neg (by omega)]

/-! ### blocks in order -/

/-- the block holds `size` elements, and for types with constructors nothing else -/
structure Good (T : Ty α) (d : Blk α) : Prop where
  le : d.size ≤ d.buf.length
  live : ∀ j x, j < d.size → d.buf[j]? = some x → x.alive = true
  rest : T.triv = false → ∀ j, d.size ≤ j → j < d.buf.length → d.buf[j]? = some .raw

theorem content_length {T : Ty α} {d : Blk α} (g : Good T d) : d.content.length = d.size := by
  have := g.le; unfold Blk.content; rw [List.length_take]; omega

theorem content_get {d : Blk α} {j : Nat} (h : j < d.size) : d.content[j]? = d.buf[j]? := by
  unfold Blk.content; exact List.getElem?_take_of_lt h

theorem content_alive {T : Ty α} {d : Blk α} (g : Good T d) : ∀ x ∈ d.content, x.alive = true := by
  intro x hx
  obtain ⟨j, hj⟩ := List.mem_iff_getElem?.1 hx
  have hlt : j < d.size := by
    rcases Nat.lt_or_ge j d.size with h | h
    · exact h
    · rw [List.getElem?_eq_none (by rw [content_length g]; omega)] at hj; cases hj
  rw [content_get hlt] at hj
  exact g.live j x hlt hj

/-- a block given by its buffer pointwise -/
theorem good_mk {T : Ty α} {b : Buf α} {i : Int} {n : Nat} (cs : List (Slot α)) (h1 : cs.length = n) (h2 : n ≤ b.length)
    (h3 : ∀ j, j < n → b[j]? = cs[j]?) (h4 : ∀ x ∈ cs, x.alive = true) (h5 : T.triv = false → ∀ j, n ≤ j → j < b.length → b[j]? = some .raw) :
    Good T ⟨i, n, b⟩ ∧ (⟨i, n, b⟩ : Blk α).content = cs := by
  refine ⟨⟨h2, ?_, h5⟩, ?_⟩
  · intro j x hj hx
    dsimp only at hj hx
    rw [h3 j hj] at hx
    exact h4 x (List.mem_of_getElem? hx)
  · apply List.ext_getElem?
    intro j
    unfold Blk.content; dsimp only
    by_cases hj : j < n
    · rw [List.getElem?_take_of_lt hj, h3 j hj]
    · rw [List.getElem?_eq_none (by rw [List.length_take]; omega), List.getElem?_eq_none (by omega)]

/-! ### the edits -/

/-- `f` turns a block with room for `n` elements into one with contents `cs`, keeping capacity and locks -/
def Edits (T : Ty α) (f : Blk α → Option (Blk α)) (d : Blk α) (cs : List (Slot α)) : Prop :=
  ∃ d', f d = some d' ∧ Good T d' ∧ d'.content = cs ∧ d'.iRef = d.iRef ∧ d'.buf.length = d.buf.length

theorem edit_set1 {T : Ty α} {d : Blk α} {k : Nat} {v : Slot α} (g : Good T d) (hk : k < d.size) (hv : v.alive = true) :
    Edits T (fun d1 => (asg1 T d1.buf k v).map fun b => { d1 with buf := b }) d (d.content.set k v) := by
  have hl := g.le
  refine ⟨⟨d.iRef, d.size, d.buf.set k v⟩, ?_, ?_⟩
  · dsimp only; rw [asg1_eq (by omega) (fun _ => ⟨fun x hx => g.live k x hk hx, hv⟩)]; rfl
  · have := good_mk (T := T) (i := d.iRef) (n := d.size) (b := d.buf.set k v) (d.content.set k v) (by rw [List.length_set, content_length g]) (by rw [List.length_set]; exact hl)
      (fun j hj => by rw [List.getElem?_set, List.getElem?_set, content_get hj, content_length g]; by_cases h : k = j <;> simp [h, show j < d.buf.length by omega, hj])
      (fun x hx => by
        rcases List.mem_or_eq_of_mem_set hx with h | h
        · exact content_alive g x h
        · subst h; exact hv)
      (fun ht j h1 h2 => by rw [List.getElem?_set_ne (by omega)]; exact g.rest ht j h1 (by simpa using h2))
    exact ⟨this.1, this.2, rfl, by simp⟩

theorem edit_append {T : Ty α} {d : Blk α} {vs : List (Slot α)} (g : Good T d) (hr : d.size + vs.length ≤ d.buf.length) (hv : ∀ v ∈ vs, v.alive = true) :
    Edits T (fun d1 => (consL T d1.buf d1.size vs).map fun b => { d1 with buf := b, size := d1.size + vs.length }) d (d.content ++ vs) := by
  refine ⟨⟨d.iRef, d.size + vs.length, splice d.buf d.size vs⟩, ?_, ?_⟩
  · dsimp only
    rw [consL_eq hr (fun ht => ⟨fun j h1 h2 => g.rest ht j h1 (by omega), hv⟩)]; rfl
  · have := good_mk (T := T) (i := d.iRef) (n := d.size + vs.length) (b := splice d.buf d.size vs) (d.content ++ vs) (by rw [List.length_append, content_length g])
      (by rw [splice_length hr]; exact hr)
      (fun j hj => by
        rw [splice_get hr]
        by_cases h : j < d.size
        · rw [if_pos h, List.getElem?_append_left (by rw [content_length g]; exact h), content_get h]
        · rw [if_neg h, if_pos hj, List.getElem?_append_right (by rw [content_length g]; omega), content_length g])
      (fun x hx => by
        rcases List.mem_append.1 hx with h | h
        · exact content_alive g x h
        · exact hv x h)
      (fun ht j h1 h2 => by
        rw [splice_length hr] at h2
        rw [splice_get hr, if_neg (by omega), if_neg (by omega)]; exact g.rest ht j (by omega) h2)
    exact ⟨this.1, this.2, rfl, splice_length hr⟩

theorem edit_truncate {T : Ty α} {d : Blk α} {n : Nat} (g : Good T d) (hn : n ≤ d.size) :
    Edits T (fun d1 => (desN T d1.buf n (d1.size - n)).map fun b => { d1 with buf := b, size := n }) d (d.content.take n) := by
  have hl := g.le
  have hw : n + (d.size - n) ≤ d.buf.length := by omega
  refine ⟨⟨d.iRef, n, wipe T d.buf n (d.size - n)⟩, ?_, ?_⟩
  · dsimp only
    rw [desN_eq hw (fun _ j x _ h2 hx => g.live j x (by omega) hx)]; rfl
  · have := good_mk (T := T) (i := d.iRef) (n := n) (b := wipe T d.buf n (d.size - n)) (d.content.take n) (by rw [List.length_take, content_length g]; omega)
      (by rw [wipe_length hw]; omega)
      (fun j hj => by rw [wipe_get hw, if_neg (by omega), List.getElem?_take_of_lt hj, content_get (by omega)])
      (fun x hx => content_alive g x (List.mem_of_mem_take hx))
      (fun ht j h1 h2 => by
        rw [wipe_length hw] at h2
        rw [wipe_get hw]
        split
        · rfl
        · rename_i h; exact g.rest ht j (Classical.byContradiction fun h' => h ⟨h1, by omega, ht⟩) h2)
    exact ⟨this.1, this.2, rfl, wipe_length hw⟩

theorem edit_size {T : Ty α} {d : Blk α} {n : Nat} (g : Good T d) (hr : n ≤ d.buf.length) :
    Edits T (sizeEdit T n) d (d.content.take n ++ List.replicate (n - d.size) (.val T.z)) := by
  by_cases h : d.size ≤ n
  · have A := edit_append (vs := List.replicate (n - d.size) (.val T.z)) g (by simp; omega) (by intro v hv; rw [List.eq_of_mem_replicate hv]; rfl)
    obtain ⟨d', e, r⟩ := A
    rw [List.take_of_length_le (by rw [content_length g]; omega)]
    refine ⟨d', ?_, r⟩
    rw [← e]; unfold sizeEdit; rw [if_pos h]
    dsimp only
    rw [show d.size + (List.replicate (n - d.size) (Slot.val T.z)).length = n by simp; omega]
    cases consL T d.buf d.size (List.replicate (n - d.size) (.val T.z)) <;> rfl
  · obtain ⟨d', e, r⟩ := edit_truncate (n := n) g (by omega)
    rw [show n - d.size = 0 by omega, List.replicate_zero, List.append_nil]
    refine ⟨d', ?_, r⟩
    rw [← e]; unfold sizeEdit; rw [if_neg h]; dsimp only
    cases desN T d.buf n (d.size - n) <;> rfl

end Verif.Arr
