import Verif.Arr.Range

/-! `SetArray`, `Insert` and `Remove`: what the element shifting does. -/

namespace Verif.Arr

variable {α : Type}

theorem edit_setArr {T : Ty α} {d : Blk α} {src : Ptr α} {m : Mem α} {q : Nat} {vs : List (Slot α)} (g : Good T d) (hc : src.clash q = false)
    (hr : src.read m q d.buf = some vs) (hl : vs.length = src.len) (room : src.len ≤ d.buf.length) (hv : ∀ v ∈ vs, v.alive = true) :
    Edits T (setEdit T src m q) d vs := by
  have gl := g.le
  have ht : (vs.take d.size).length = min d.size src.len := by rw [List.length_take, hl]
  have e1 : asgL T d.buf 0 (vs.take d.size) = some (splice d.buf 0 (vs.take d.size)) := by
    refine asgL_eq (by omega) fun _ => ⟨fun j x _ h2 hx => g.live j x (by omega) hx, fun v h => hv v (List.mem_of_mem_take h)⟩
  have hb : ∀ j, (splice d.buf 0 (vs.take d.size))[j]? = if j < min d.size src.len then vs[j]? else d.buf[j]? := by
    intro j
    rw [splice_get (by omega), if_neg (by omega), Nat.zero_add, ht]
    split
    · rw [Nat.sub_zero, List.getElem?_take_of_lt (by omega)]
    · rfl
  have hbl : (splice d.buf 0 (vs.take d.size)).length = d.buf.length := splice_length (by omega)
  generalize splice d.buf 0 (vs.take d.size) = b at e1 hb hbl
  have fin : ∀ b', (if src.len ≤ d.size then desN T b src.len (d.size - src.len) else consL T b d.size (vs.drop d.size)) = some b' →
      setEdit T src m q d = some { d with buf := b', size := src.len } := by
    intro b' h
    unfold setEdit
    rw [hc]
    simp only [Bool.false_eq_true, if_false, hr, e1]
    rw [h]
  by_cases h : src.len ≤ d.size
  · have hw : src.len + (d.size - src.len) ≤ b.length := by omega
    have e2 := desN_eq (T := T) (b := b) hw (fun _ j x h1 h2 hx => by
      rw [hb, if_neg (by omega)] at hx; exact g.live j x (by omega) hx)
    refine ⟨_, fin _ (by rw [if_pos h, e2]), ?_⟩
    have := good_mk (T := T) (i := d.iRef) (n := src.len) (b := wipe T b src.len (d.size - src.len)) vs hl (by rw [wipe_length hw]; omega)
      (fun j hj => by rw [wipe_get hw, if_neg (by omega), hb, if_pos (by omega)]) hv
      (fun t j h1 h2 => by
        rw [wipe_length hw] at h2
        rw [wipe_get hw]
        split
        · rfl
        · rename_i h3
          rw [hb, if_neg (by omega)]
          exact g.rest t j (Classical.byContradiction fun h' => h3 ⟨h1, by omega, t⟩) (by omega))
    exact ⟨this.1, this.2, rfl, by dsimp only; rw [wipe_length hw, hbl]⟩
  · have hdl : (vs.drop d.size).length = src.len - d.size := by rw [List.length_drop, hl]
    have hw : d.size + (vs.drop d.size).length ≤ b.length := by omega
    have e2 := consL_eq (T := T) (b := b) hw (fun t => ⟨fun j h1 h2 => by
      rw [hb, if_neg (by omega)]; exact g.rest t j (by omega) (by omega), fun v hx => hv v (List.mem_of_mem_drop hx)⟩)
    refine ⟨_, fin _ (by rw [if_neg h, e2]), ?_⟩
    have := good_mk (T := T) (i := d.iRef) (n := src.len) (b := splice b d.size (vs.drop d.size)) vs hl (by rw [splice_length hw]; omega)
      (fun j hj => by
        rw [splice_get hw, hb]
        by_cases h1 : j < d.size
        · rw [if_pos h1, if_pos (by omega)]
        · rw [if_neg h1, if_pos (by omega), List.getElem?_drop]; congr 1; omega) hv
      (fun t j h1 h2 => by
        rw [splice_length hw] at h2
        rw [splice_get hw, if_neg (by omega), if_neg (by omega), hb, if_neg (by omega)]
        exact g.rest t j (by omega) (by omega))
    exact ⟨this.1, this.2, rfl, by dsimp only; rw [splice_length hw, hbl]⟩

/-! ### `Move` -/

theorem move_triv {T : Ty α} (t : T.triv = true) {b : Buf α} {dst first last : Nat} (h1 : first ≤ last) (h2 : last ≤ b.length) (h3 : dst + (last - first) ≤ b.length) :
    ∃ b', move T b dst first last = some b' ∧ b'.length = b.length ∧
      ∀ j, b'[j]? = if dst ≤ j ∧ j < dst + (last - first) then b[first + (j - dst)]? else b[j]? := by
  have hl : ((b.drop first).take (last - first)).length = last - first := by rw [List.length_take, List.length_drop]; omega
  refine ⟨_, ?_, splice_length (k := dst) (vs := (b.drop first).take (last - first)) (by omega), ?_⟩
  · unfold move; rw [t, if_pos rfl, if_neg (by omega)]
    exact asgL_eq (by omega) (fun f => by rw [t] at f; cases f)
  · intro j
    rw [splice_get (by omega), hl]
    by_cases h : j < dst
    · rw [if_pos h, if_neg (by omega)]
    · rw [if_neg h]
      by_cases h4 : j < dst + (last - first)
      · rw [if_pos h4, if_pos ⟨by omega, h4⟩, List.getElem?_take_of_lt (by omega), List.getElem?_drop]
      · rw [if_neg h4, if_neg (by omega)]

theorem mv1_eq {T : Ty α} {b : Buf α} {dst src : Nat} {v : Slot α} (hs : b[src]? = some v) (hv : v.alive = true) (hd : dst < b.length) (hne : dst ≠ src)
    (ha : ∀ x, b[dst]? = some x → x.alive = true) : mv1 T b dst src = some ((b.set src .moved).set dst v) := by
  unfold mv1; rw [hs]; dsimp only
  exact asg1_eq (by rw [List.length_set]; exact hd) (fun _ => ⟨fun x hx => ha x (by rwa [List.getElem?_set_ne (Ne.symm hne)] at hx), hv⟩)

/-- the forward loop one place up: the first element travels to the end, everything between is moved-from -/
theorem mvFwd_up {T : Ty α} {b : Buf α} {k n : Nat} (hb : k + n < b.length) (ha : ∀ j x, k ≤ j → j ≤ k + n → b[j]? = some x → x.alive = true) :
    ∃ b', mvFwd T b (k + 1) k n = some b' ∧ b'.length = b.length ∧
      ∀ j, b'[j]? = if k ≤ j ∧ j < k + n then some .moved else if j = k + n then b[k]? else b[j]? := by
  induction n generalizing b k with
  | zero =>
    refine ⟨b, rfl, rfl, fun j => ?_⟩
    rw [if_neg (by omega)]
    split
    · subst j; rfl
    · rfl
  | succ n ih =>
    have hk : k < b.length := by omega
    have e := mv1_eq (T := T) (b := b) (dst := k + 1) (src := k) (List.getElem?_eq_getElem hk) (ha k _ (by omega) (by omega) (List.getElem?_eq_getElem hk)) (by omega) (by omega)
      (fun x hx => ha (k + 1) x (by omega) (by omega) hx)
    obtain ⟨b', e2, hl, hg⟩ := ih (b := (b.set k .moved).set (k + 1) b[k]) (k := k + 1) (by simp only [List.length_set]; omega)
      (fun j x h1 h2 hx => by
        by_cases hj : j = k + 1
        · subst hj
          rw [List.getElem?_set_self (by rw [List.length_set]; omega)] at hx
          cases hx; exact ha k _ (by omega) (by omega) (List.getElem?_eq_getElem hk)
        · rw [List.getElem?_set_ne (by omega), List.getElem?_set_ne (by omega)] at hx
          exact ha j x (by omega) (by omega) hx)
    refine ⟨b', ?_, by rw [hl]; simp, ?_⟩
    · unfold mvFwd; rw [e]; exact e2
    · intro j
      rw [hg j]
      by_cases h1 : j < k
      · rw [if_neg (by omega), if_neg (by omega), if_neg (by omega), if_neg (by omega), List.getElem?_set_ne (by omega), List.getElem?_set_ne (by omega)]
      · by_cases h2 : j = k
        · subst h2
          rw [if_neg (by omega), if_neg (by omega), if_pos (by omega), List.getElem?_set_ne (by omega), List.getElem?_set_self (by omega)]
        · by_cases h3 : j < k + (n + 1)
          · rw [if_pos (by omega), if_pos (by omega)]
          · rw [if_neg (by omega), if_neg (show ¬ (k ≤ j ∧ j < k + (n + 1)) by omega)]
            by_cases h4 : j = k + (n + 1)
            · rw [if_pos (by omega), if_pos h4, List.getElem?_set_self (by rw [List.length_set]; omega), List.getElem?_eq_getElem hk]
            · rw [if_neg (by omega), if_neg h4, List.getElem?_set_ne (by omega), List.getElem?_set_ne (by omega)]

/-- the last of `j, j + c, j + 2c, …` below `e` -/
def topOf (c e j : Nat) : Nat := j + c * ((e - 1 - j) / c)

theorem topOf_lt {c e j : Nat} (h : j < e) : topOf c e j < e := by
  unfold topOf; have := Nat.mul_div_le (e - 1 - j) c; omega

theorem topOf_ge {c e j : Nat} (hc : 0 < c) (h : j < e) : e ≤ topOf c e j + c := by
  unfold topOf
  have := Nat.lt_mul_div_succ (e - 1 - j) hc
  rw [Nat.mul_add, Nat.mul_one] at this; omega

theorem topOf_self {c j : Nat} (hc : 0 < c) : topOf c (j + c + 1) j = j + c := by
  unfold topOf
  rw [show j + c + 1 - 1 - j = c by omega, Nat.div_self hc]; omega

theorem topOf_succ {c e j : Nat} (hc : 0 < c) (h : j < e) : topOf c (e + 1) j = if topOf c e j + c = e then e else topOf c e j := by
  have l1 := topOf_lt (c := c) h
  have g1 := topOf_ge hc h
  unfold topOf at *
  have d1 := Nat.div_add_mod (e - 1 - j) c
  have m1 := Nat.mod_lt (e - 1 - j) hc
  have d2 := Nat.div_add_mod (e + 1 - 1 - j) c
  have m2 := Nat.mod_lt (e + 1 - 1 - j) hc
  have e1 : e + 1 - 1 - j = (e - 1 - j) + 1 := by omega
  rw [e1] at d2 m2 ⊢
  by_cases hd : (e - 1 - j) % c + 1 = c
  · have : ((e - 1 - j) + 1) / c = (e - 1 - j) / c + 1 := by
      rw [← Nat.add_div_right _ hc]
      have e2 : e - 1 - j + 1 = c * ((e - 1 - j) / c + 1) := by rw [Nat.mul_add, Nat.mul_one]; omega
      rw [e2, Nat.mul_div_cancel_left _ hc, Nat.add_div_right _ hc]
    rw [this, Nat.mul_add, Nat.mul_one, if_pos (by omega)]; omega
  · have : ((e - 1 - j) + 1) / c = (e - 1 - j) / c := by
      have e2 : e - 1 - j + 1 = ((e - 1 - j) % c + 1) + c * ((e - 1 - j) / c) := by omega
      conv => lhs; rw [e2]
      rw [Nat.add_mul_div_left _ _ hc, Nat.div_eq_of_lt (by omega)]; omega
    rw [this, if_neg (by omega)]

/-- the backward loop `c` places down -/
theorem mvBwd_down {T : Ty α} {b : Buf α} {k c n : Nat} (hc : 0 < c) (hb : k + c + n ≤ b.length) (ha : ∀ j x, k ≤ j → j < k + c + n → b[j]? = some x → x.alive = true) :
    ∃ b', mvBwd T b k (k + c) n = some b' ∧ b'.length = b.length ∧
      ∀ j, b'[j]? = if k ≤ j ∧ j < k + c ∧ j < k + n then b[topOf c (k + c + n) j]? else if k + c ≤ j ∧ j < k + c + n then some .moved else b[j]? := by
  induction n generalizing b with
  | zero =>
    refine ⟨b, rfl, rfl, fun j => ?_⟩
    rw [if_neg (by omega), if_neg (by omega)]
  | succ n ih =>
    have hs : k + c + n < b.length := by omega
    have e := mv1_eq (T := T) (b := b) (dst := k + n) (src := k + c + n) (List.getElem?_eq_getElem hs) (ha _ _ (by omega) (by omega) (List.getElem?_eq_getElem hs)) (by omega) (by omega)
      (fun x hx => ha (k + n) x (by omega) (by omega) hx)
    have hget : ∀ j, ((b.set (k + c + n) .moved).set (k + n) b[k + c + n])[j]? = if j = k + n then b[k + c + n]? else if j = k + c + n then some .moved else b[j]? := by
      intro j
      by_cases h1 : j = k + n
      · subst h1; rw [if_pos rfl, List.getElem?_set_self (by rw [List.length_set]; omega), List.getElem?_eq_getElem hs]
      · rw [if_neg h1, List.getElem?_set_ne (by omega)]
        by_cases h2 : j = k + c + n
        · subst h2; rw [if_pos rfl, List.getElem?_set_self hs]
        · rw [if_neg h2, List.getElem?_set_ne (by omega)]
    obtain ⟨b', e2, hl, hg⟩ := ih (b := (b.set (k + c + n) .moved).set (k + n) b[k + c + n]) (by simp only [List.length_set]; omega)
      (fun j x h1 h2 hx => by
        rw [hget] at hx
        by_cases hj : j = k + n
        · rw [if_pos hj] at hx; exact ha _ x (by omega) (by omega) hx
        · rw [if_neg hj, if_neg (by omega)] at hx; exact ha j x h1 (by omega) hx)
    refine ⟨b', ?_, by rw [hl]; simp, ?_⟩
    · unfold mvBwd; rw [show k + c + n = k + c + n from rfl, e]; exact e2
    · intro j
      rw [hg j, hget, hget]
      by_cases h0 : k ≤ j ∧ j < k + c ∧ j < k + n
      · have tl := topOf_lt (c := c) (e := k + c + n) (j := j) (by omega)
        have ts := topOf_succ (e := k + c + n) (j := j) hc (by omega)
        have tg := topOf_ge (e := k + c + n) (j := j) hc (by omega)
        rw [if_pos h0, if_pos (show k ≤ j ∧ j < k + c ∧ j < k + (n + 1) by omega), show k + c + (n + 1) = k + c + n + 1 by omega, ts]
        by_cases h1 : topOf c (k + c + n) j = k + n
        · rw [if_pos h1, if_pos (by omega)]
        · rw [if_neg h1, if_neg (by omega), if_neg (by omega)]
      · rw [if_neg h0]
        by_cases h1 : k + c ≤ j ∧ j < k + c + n
        · rw [if_pos h1, if_neg (by omega), if_pos (by omega)]
        · rw [if_neg h1]
          by_cases h2 : j = k + n
          · subst h2
            have ts := topOf_self (c := c) (j := k + n) hc
            by_cases h3 : n < c
            · rw [if_pos rfl, if_pos (by omega), show k + c + (n + 1) = k + n + c + 1 by omega, ts, show k + n + c = k + c + n by omega]
            · omega
          · rw [if_neg h2]
            by_cases h3 : j = k + c + n
            · rw [if_pos h3, if_neg (by omega), if_pos (by omega)]
            · rw [if_neg h3, if_neg (by omega), if_neg (by omega)]

/-! ### `Insert` -/

/-- what `Insert` really leaves for a type with constructors: the old last element is last, the old element at `k` is last but one, and between are moved-from elements -/
def insertMess (c : List (Slot α)) (k : Nat) (x : Slot α) : List (Slot α) :=
  c.take k ++ [x] ++ List.replicate (c.length - 2 - k) .moved ++ (c.drop k).take (c.length - 1 - k - (c.length - 2 - k)) ++ c.drop (c.length - 1)

theorem insertMess_length {c : List (Slot α)} {k : Nat} {x : Slot α} (h : k < c.length) : (insertMess c k x).length = c.length + 1 := by
  simp only [insertMess, List.length_append, List.length_take, List.length_drop, List.length_replicate, List.length_singleton]; omega

theorem insertMess_get {c : List (Slot α)} {k : Nat} {x : Slot α} (h : k < c.length) (j : Nat) (hj : j ≤ c.length) :
    (insertMess c k x)[j]? = if j < k then c[j]? else if j = k then some x else if j + 1 < c.length then some .moved else if j < c.length then c[k]? else c[c.length - 1]? := by
  unfold insertMess
  have l1 : (c.take k).length = k := by rw [List.length_take]; omega
  have l2 : (c.take k ++ [x]).length = k + 1 := by rw [List.length_append, l1]; rfl
  have l3 : (c.take k ++ [x] ++ List.replicate (c.length - 2 - k) Slot.moved).length = k + 1 + (c.length - 2 - k) := by rw [List.length_append, l2, List.length_replicate]
  have l4 : (c.take k ++ [x] ++ List.replicate (c.length - 2 - k) Slot.moved ++ (c.drop k).take (c.length - 1 - k - (c.length - 2 - k))).length = c.length := by
    rw [List.length_append, l3, List.length_take, List.length_drop]; omega
  by_cases h1 : j < k
  · rw [if_pos h1, List.getElem?_append_left (by omega), List.getElem?_append_left (by omega), List.getElem?_append_left (by omega), List.getElem?_append_left (by omega),
      List.getElem?_take_of_lt h1]
  · rw [if_neg h1]
    by_cases h2 : j = k
    · rw [if_pos h2, List.getElem?_append_left (by omega), List.getElem?_append_left (by omega), List.getElem?_append_left (by omega), List.getElem?_append_right (by omega), l1, h2]; simp
    · rw [if_neg h2]
      by_cases h3 : j + 1 < c.length
      · rw [if_pos h3, List.getElem?_append_left (by omega), List.getElem?_append_left (by omega), List.getElem?_append_right (by omega), List.getElem?_replicate, if_pos (by omega)]
      · rw [if_neg h3]
        by_cases h4 : j < c.length
        · rw [if_pos h4, List.getElem?_append_left (by omega), List.getElem?_append_right (by omega), l3, List.getElem?_take_of_lt (by omega), List.getElem?_drop]
          congr 1; omega
        · rw [if_neg h4, List.getElem?_append_right (by omega), l4, List.getElem?_drop]
          congr 1; omega

/-- reading the argument at the end of the shifting: an outside value, an element of another block, or whatever is then in the slot -/
theorem edit_insert {T : Ty α} {d : Blk α} {k : Nat} {v : Item α} {m : Mem α} {q : Nat} {x : Slot α} (g : Good T d) (hk : k ≤ d.size) (room : d.size < d.buf.length)
    (hx : ∀ b, v.read m q b = some x) (hv : x.alive = true) :
    Edits T (insertEdit T k v m q) d (if T.triv ∨ k = d.size then d.content.take k ++ [x] ++ d.content.drop k else insertMess d.content k x) := by
  have cl := content_length g
  by_cases he : k = d.size
  · rw [if_pos (.inr he)]
    obtain ⟨d', e, r⟩ := edit_append (vs := [x]) g (by simp; omega) (by simpa using hv)
    rw [List.take_of_length_le (by omega), List.drop_of_length_le (by omega), List.append_nil]
    refine ⟨d', ?_, r⟩
    rw [← e]; unfold insertEdit; rw [if_pos he, hx]
    simp only [consL]
    cases cons1 T d.buf d.size x <;> rfl
  · have hlast : d.size - 1 < d.buf.length := by omega
    have ela : (d.buf[d.size - 1]).alive = true := g.live _ _ (by omega) (List.getElem?_eq_getElem hlast)
    have e0 : d.buf[d.size - 1]? = some d.buf[d.size - 1] := List.getElem?_eq_getElem hlast
    generalize d.buf[d.size - 1] = l at e0 ela
    have fin : ∀ b1 b2, cons1 T (if T.triv then d.buf else d.buf.set (d.size - 1) .moved) d.size l = some b1 → move T b1 (k + 1) k (d.size - 1) = some b2 →
        asg1 T b2 k x = some (b2.set k x) → insertEdit T k v m q d = some { d with buf := b2.set k x, size := d.size + 1 } := by
      intro b1 b2 h1 h2 h3
      unfold insertEdit
      rw [if_neg he, e0]
      simp only [h1, h2, hx, h3, Option.map_some]
    cases t : T.triv with
    | true =>
      rw [if_pos (.inl rfl)]
      have c1 : cons1 T d.buf d.size l = some (d.buf.set d.size l) := cons1_eq room (fun f => by rw [t] at f; cases f)
      obtain ⟨b2, e2, l2, g2⟩ := move_triv t (b := d.buf.set d.size l) (dst := k + 1) (first := k) (last := d.size - 1) (by omega) (by rw [List.length_set]; omega) (by rw [List.length_set]; omega)
      rw [List.length_set] at l2
      have e3 : asg1 T b2 k x = some (b2.set k x) := asg1_eq (by omega) (fun f => by rw [t] at f; cases f)
      refine ⟨_, fin _ _ (by rw [t, if_pos rfl]; exact c1) e2 e3, ?_⟩
      have := good_mk (T := T) (i := d.iRef) (n := d.size + 1) (b := b2.set k x) (d.content.take k ++ [x] ++ d.content.drop k)
        (by simp only [List.length_append, List.length_take, List.length_drop, List.length_singleton]; omega) (by rw [List.length_set]; omega)
        (fun j hj => by
          have lk : (d.content.take k).length = k := by rw [List.length_take]; omega
          by_cases h1 : j = k
          · subst h1
            rw [List.getElem?_set_self (by omega), List.append_assoc, List.getElem?_append_right (by omega), lk]; simp
          · rw [List.getElem?_set_ne (by omega), g2]
            by_cases h2 : j < k
            · rw [if_neg (by omega), List.getElem?_set_ne (by omega), List.append_assoc, List.getElem?_append_left (by omega), List.getElem?_take_of_lt h2, content_get (by omega)]
            · rw [List.getElem?_append_right (by rw [List.length_append, lk]; simp; omega), List.length_append, lk, List.length_singleton, List.getElem?_drop]
              rw [show k + (j - (k + 1)) = j - 1 by omega, content_get (by omega)]
              by_cases h3 : j < d.size
              · rw [if_pos (by omega), List.getElem?_set_ne (by omega)]
              · rw [if_neg (by omega), show j = d.size by omega, List.getElem?_set_self room, e0])
        (fun y hy => by
          rcases List.mem_append.1 hy with h | h
          · rcases List.mem_append.1 h with h | h
            · exact content_alive g y (List.mem_of_mem_take h)
            · rw [List.mem_singleton.1 h]; exact hv
          · exact content_alive g y (List.mem_of_mem_drop h))
        (fun f => by rw [t] at f; cases f)
      exact ⟨this.1, this.2, rfl, by simp [l2]⟩
    | false =>
      rw [if_neg (by simp [he])]
      have c1 : cons1 T (d.buf.set (d.size - 1) .moved) d.size l = some ((d.buf.set (d.size - 1) .moved).set d.size l) :=
        cons1_eq (by rw [List.length_set]; omega) (fun _ => ⟨by rw [List.getElem?_set_ne (by omega)]; exact g.rest t _ (by omega) room, ela⟩)
      have hget : ∀ j, ((d.buf.set (d.size - 1) .moved).set d.size l)[j]? = if j = d.size then some l else if j = d.size - 1 then some .moved else d.buf[j]? := by
        intro j
        by_cases h1 : j = d.size
        · subst h1; rw [if_pos rfl, List.getElem?_set_self (by rw [List.length_set]; omega)]
        · rw [if_neg h1, List.getElem?_set_ne (by omega)]
          by_cases h2 : j = d.size - 1
          · subst h2; rw [if_pos rfl, List.getElem?_set_self (by omega)]
          · rw [if_neg h2, List.getElem?_set_ne (by omega)]
      have hlen : ((d.buf.set (d.size - 1) .moved).set d.size l).length = d.buf.length := by simp
      generalize (d.buf.set (d.size - 1) .moved).set d.size l = b1 at c1 hget hlen
      obtain ⟨b2, e2, l2, g2⟩ := mvFwd_up (T := T) (b := b1) (k := k) (n := d.size - 1 - k) (by omega) (fun j y h1 h2 hy => by
        rw [hget, if_neg (by omega)] at hy
        by_cases h3 : j = d.size - 1
        · rw [if_pos h3] at hy; cases hy; rfl
        · rw [if_neg h3] at hy; exact g.live j y (by omega) hy)
      have em : move T b1 (k + 1) k (d.size - 1) = some b2 := by
        unfold move; rw [t, if_neg (by simp), if_neg (by omega), if_neg (by omega)]; exact e2
      have e3 : asg1 T b2 k x = some (b2.set k x) := asg1_eq (by omega) (fun _ => ⟨fun y hy => by
        rw [g2] at hy
        by_cases h3 : k < k + (d.size - 1 - k)
        · rw [if_pos ⟨by omega, h3⟩] at hy; cases hy; rfl
        · rw [if_neg (by omega), if_pos (by omega), hget, if_neg (by omega), if_pos (by omega)] at hy; cases hy; rfl, hv⟩)
      refine ⟨_, fin _ _ (by rw [t, if_neg (by simp)]; exact c1) em e3, ?_⟩
      have := good_mk (T := T) (i := d.iRef) (n := d.size + 1) (b := b2.set k x) (insertMess d.content k x)
        (by rw [insertMess_length (by omega)]; omega) (by rw [List.length_set]; omega)
        (fun j hj => by
          rw [insertMess_get (by omega) j (by omega), cl]
          by_cases h1 : j = k
          · subst h1
            rw [List.getElem?_set_self (by omega), if_neg (by omega), if_pos rfl]
          · rw [List.getElem?_set_ne (by omega), g2, if_neg h1]
            by_cases h2 : j < k
            · rw [if_neg (by omega), if_neg (by omega), if_pos h2, hget, if_neg (by omega), if_neg (by omega), content_get (by omega)]
            · rw [if_neg h2]
              by_cases h3 : j + 1 < d.size
              · rw [if_pos (by omega), if_pos h3]
              · rw [if_neg (by omega), if_neg h3]
                by_cases h4 : j < d.size
                · rw [if_pos (by omega), if_pos h4, hget, if_neg (by omega), if_neg (by omega), content_get (by omega)]
                · rw [if_neg (by omega), if_neg h4, hget, if_pos (by omega), content_get (by omega), e0])
        (fun y hy => by
          simp only [insertMess, List.mem_append] at hy
          rcases hy with (((h | h) | h) | h) | h
          · exact content_alive g y (List.mem_of_mem_take h)
          · rw [List.mem_singleton.1 h]; exact hv
          · rw [List.eq_of_mem_replicate h]; rfl
          · exact content_alive g y (List.mem_of_mem_drop (List.mem_of_mem_take h))
          · exact content_alive g y (List.mem_of_mem_drop h))
        (fun _ j h1 h2 => by
          rw [List.length_set, l2, hlen] at h2
          rw [List.getElem?_set_ne (by omega), g2, if_neg (by omega), if_neg (by omega), hget, if_neg (by omega), if_neg (by omega)]
          exact g.rest t j (by omega) h2)
      exact ⟨this.1, this.2, rfl, by dsimp only; rw [List.length_set, l2, hlen]⟩

/-! ### `Remove` -/

/-- what `Remove` of `n` elements at `k` really leaves for a type with constructors: each of the first `n` places gets the last element of its residue class, the places after are moved-from -/
def removeMess (c : List (Slot α)) (k n : Nat) : List (Slot α) :=
  (List.range (c.length - n)).map fun j => if j < k then c[j]?.getD .raw else if j < k + n then c[topOf n c.length j]?.getD .raw else .moved

theorem edit_remove {T : Ty α} {d : Blk α} {k n : Nat} (g : Good T d) (hn : 0 < n) (hk : k + n ≤ d.size) :
    Edits T (removeEdit T k n) d (if T.triv then d.content.take k ++ d.content.drop (k + n) else removeMess d.content k n) := by
  have cl := content_length g
  have gl := g.le
  have fin : ∀ b1, move T d.buf k (k + n) d.size = some b1 → b1.length = d.buf.length → (∀ j y, d.size - n ≤ j → j < d.size → T.triv = false → b1[j]? = some y → y.alive = true) →
      removeEdit T k n d = some { d with buf := wipe T b1 (d.size - n) n, size := d.size - n } := by
    intro b1 h1 h2 h3
    unfold removeEdit
    rw [h1]; dsimp only
    rw [desN_eq (by omega) (fun t j y a b c => h3 j y a (by omega) t c)]; rfl
  cases t : T.triv with
  | true =>
    rw [if_pos rfl]
    obtain ⟨b1, e1, l1, g1⟩ := move_triv t (b := d.buf) (dst := k) (first := k + n) (last := d.size) (by omega) (by omega) (by omega)
    have hw : d.size - n + n ≤ b1.length := by omega
    refine ⟨_, fin b1 e1 l1 (fun _ _ _ _ f => by rw [t] at f; cases f), ?_⟩
    have := good_mk (T := T) (i := d.iRef) (n := d.size - n) (b := wipe T b1 (d.size - n) n) (d.content.take k ++ d.content.drop (k + n))
      (by simp only [List.length_append, List.length_take, List.length_drop]; omega) (by rw [wipe_length hw]; omega)
      (fun j hj => by
        have lk : (d.content.take k).length = k := by rw [List.length_take]; omega
        rw [wipe_get hw, if_neg (by omega), g1]
        by_cases h1 : j < k
        · rw [if_neg (by omega), List.getElem?_append_left (by omega), List.getElem?_take_of_lt h1, content_get (by omega)]
        · rw [if_pos (by omega), List.getElem?_append_right (by omega), lk, List.getElem?_drop, content_get (by omega)])
      (fun y hy => by
        rcases List.mem_append.1 hy with h | h
        · exact content_alive g y (List.mem_of_mem_take h)
        · exact content_alive g y (List.mem_of_mem_drop h))
      (fun f => by rw [t] at f; cases f)
    exact ⟨this.1, this.2, rfl, by dsimp only; rw [wipe_length hw, l1]⟩
  | false =>
    rw [if_neg (by simp)]
    obtain ⟨b1, e1, l1, g1⟩ := mvBwd_down (T := T) (b := d.buf) (k := k) (c := n) (n := d.size - (k + n)) hn (by omega) (fun j y h1 h2 hy => g.live j y (by omega) hy)
    have hw : d.size - n + n ≤ b1.length := by omega
    have em : move T d.buf k (k + n) d.size = some b1 := by
      unfold move; rw [t, if_neg (by simp), if_neg (by omega), if_pos (by omega)]; exact e1
    have g1' : ∀ j, j < d.size → b1[j]? = if j < k then d.buf[j]? else if j < k + n then (if j < d.size - n then d.buf[topOf n d.size j]? else d.buf[j]?) else some .moved := by
      intro j hj
      rw [g1, show k + n + (d.size - (k + n)) = d.size by omega]
      by_cases h1 : j < k
      · rw [if_neg (by omega), if_neg (by omega), if_pos h1]
      · rw [if_neg h1]
        by_cases h2 : j < k + n
        · rw [if_pos h2]
          by_cases h3 : j < d.size - n
          · rw [if_pos (by omega), if_pos h3]
          · rw [if_neg (by omega), if_neg (by omega), if_neg h3]
        · rw [if_neg (by omega), if_pos (by omega), if_neg h2]
    have al : ∀ j y, j < d.size → b1[j]? = some y → y.alive = true := by
      intro j y hj hy
      rw [g1' j hj] at hy
      split at hy
      · exact g.live j y hj hy
      · split at hy
        · split at hy
          · exact g.live _ y (topOf_lt hj) hy
          · exact g.live j y hj hy
        · cases hy; rfl
    refine ⟨_, fin b1 em l1 (fun j y _ h2 _ hy => al j y h2 hy), ?_⟩
    have hcs : ∀ j, j < d.size - n → b1[j]? = (removeMess d.content k n)[j]? := by
      intro j hj
      have e2 : (removeMess d.content k n)[j]? = some (if j < k then d.content[j]?.getD .raw else if j < k + n then d.content[topOf n d.size j]?.getD .raw else .moved) := by
        unfold removeMess; rw [cl, List.getElem?_map, List.getElem?_range hj]; rfl
      have get : ∀ i, i < d.size → d.buf[i]? = some (d.content[i]?.getD .raw) := by
        intro i hi; rw [content_get hi, List.getElem?_eq_getElem (by omega)]; rfl
      rw [e2, g1' j (by omega)]
      split
      · exact get j (by omega)
      · split
        · exact get _ (topOf_lt (by omega))
        · rfl
    have := good_mk (T := T) (i := d.iRef) (n := d.size - n) (b := wipe T b1 (d.size - n) n) (removeMess d.content k n)
      (by simp [removeMess, cl]) (by rw [wipe_length hw]; omega)
      (fun j hj => by rw [wipe_get hw, if_neg (by omega), hcs j hj])
      (fun y hy => by
        obtain ⟨j, hj⟩ := List.mem_iff_getElem?.1 hy
        have hlt : j < d.size - n := by
          rcases Nat.lt_or_ge j (d.size - n) with h | h
          · exact h
          · rw [List.getElem?_eq_none (by simp [removeMess, cl]; omega)] at hj; cases hj
        rw [← hcs j hlt] at hj
        exact al j y (by omega) hj)
      (fun _ j h1 h2 => by
        rw [wipe_length hw, l1] at h2
        rw [wipe_get hw]
        split
        · rfl
        · rename_i h3
          have h4 : d.size ≤ j := Classical.byContradiction fun h' => h3 ⟨h1, by omega, t⟩
          rw [g1, if_neg (by omega), if_neg (by omega)]
          exact g.rest t j h4 h2)
    exact ⟨this.1, this.2, rfl, by dsimp only; rw [wipe_length hw, l1]⟩

end Verif.Arr
