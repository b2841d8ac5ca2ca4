import Verif.Arr.Stay

/-! The property theorems for `Array` (copy-on-write policy): C18, C19, C20. -/

namespace Verif.Arr

variable {α : Type}

/-! ### C18: trivially copyable elements -/

/-- **C18 (partial).**  In every history of valid operations on Arrays of trivially copyable elements, each member function either succeeds and has exactly the effect of the list operation of the same
name (`listOp`), or reports `bounds` (exactly for an index out of range), reports missing memory (only if the allocator failed) or throws (only for a locked array; `UnlockBuffer`: only for one that is
not locked), and in these three cases the elements are unchanged.

Missing for the full claim: arguments that are elements of the modified, unshared array itself for `Insert`, `Add(range)` and `SetArray`, where it is false (`C18_insert_alias_fails`,
`C18_insert_alias_ub_fails`, `C18_addN_alias_ub_fails`); assignment of an unlocked array to a locked one (`C20_assign_locked_fails`). The `SOO` allocation policy is in C73, `Sort` in C89. -/
theorem C18_list_ops_partial {T : Ty α} (t : T.triv = true) {ops s op i} (r : Run T init ops s) (hv : Valid T s op) (hf : Few s) (hi : op.self? = some i) :
    match step T s op with
    | .ret hr s' =>
      (hr = .bounds ↔ op.beyond (items s i).length) ∧ (hr = .oom → op.al = none) ∧
      items s' i = if hr = .ok then listOp id T.z (op.srcItems s) (op.item T s) (items s i) op else items s i
    | .thr s' => items s' i = items s i ∧ (match op with | .unlock _ => ¬ IsLocked s i | _ => IsLocked s i)
    | _ => False := by
  have inv := run_inv r (inv_init T)
  have w := whole_run t r (inv_init T) whole_init
  have hl : Live s i := by
    cases op <;> cases hi <;> first | exact hv | exact hv.1 | (obtain ⟨d, hd, _⟩ := hv; obtain ⟨a, ha, _⟩ := live_of_blk hd; exact ⟨a, ha⟩)
  obtain ⟨p, d, hp, hm, hb, _⟩ := handle_facts inv hl
  have A := member_step inv hf hv hi hb
  have hc := whole_items w hb
  have hlen : (items s i).length = d.size := by rw [← blk_length inv hb, hc, List.length_map]
  rw [hlen]
  have lk : IsLocked s i ↔ d.isLocked := ⟨fun ⟨x, h, g⟩ => by rw [hb] at h; cases h; exact g, fun h => ⟨d, hb, h⟩⟩
  unfold WPost at A
  split at A
  · exact A.elim
  · exact A.elim
  · rename_i s' e
    rw [e]; dsimp only
    obtain ⟨_, _, _, d', h1, h2, h3⟩ := A
    refine ⟨items_eq h1 (by rw [h2.1, hc]), ?_⟩
    cases op <;> first | exact lk.2 h3 | exact fun h => h3 (lk.1 h)
  · rename_i hr s' e
    rw [e]; dsimp only
    obtain ⟨_, _, _, d', h1, h2⟩ := A
    refine ⟨h2.bounds, fun h => (h2.oom h).1, ?_⟩
    cases hr with
    | ok => rw [if_pos rfl]; exact items_eq h1 (by rw [h2.ok rfl, want_triv t inv w hv hb hi])
    | oom => rw [if_neg (by decide)]; exact items_eq h1 (by rw [(h2.oom rfl).2.1, hc])
    | bounds => rw [if_neg (by decide)]; exact items_eq h1 (by rw [(h2.kept rfl).1, hc])

/-- the elements in memory are exactly `items`: there are `GetSize()` many and each place holds its value -/
theorem C18_values {T : Ty α} (t : T.triv = true) {ops s} (r : Run T init ops s) {k d} (hd : blk s k = some d) :
    d.size = (items s k).length ∧ d.size ≤ d.buf.length ∧ ∀ j < d.size, d.buf[j]? = ((items s k)[j]?).map .val := by
  have inv := run_inv r (inv_init T)
  have w := whole_run t r (inv_init T) whole_init
  have hc := whole_items w hd
  obtain ⟨a, ha, hm⟩ := live_of_blk hd
  refine ⟨by rw [← blk_length inv hd, hc, List.length_map], (inv.good hm).le, fun j hj => ?_⟩
  rw [← content_get hj, hc, List.getElem?_map]

/-! ### C19: elements with their own copy and move semantics -/

/-- calls for which the shifting in `Insert` and `Remove` is right: at most two elements behind the insertion point, at most as many elements behind the removed ones as were removed -/
def Smooth (n : Nat) : Op α → Prop
  | .insert _ k _ _ => n ≤ k + 2
  | .remove _ k c _ => n ≤ k + 2 * c ∨ c = 0
  | _ => True

theorem insertMess_ok {c : List (Slot α)} {k : Nat} {x : Slot α} (h : k < c.length) (h2 : c.length ≤ k + 2) : insertMess c k x = c.take k ++ x :: c.drop k := by
  apply List.ext_getElem?
  intro j
  have l : (c.take k ++ x :: c.drop k).length = c.length + 1 := by simp; omega
  by_cases hj : j ≤ c.length
  · rw [insertMess_get h j hj]
    have lt : (c.take k).length = k := by rw [List.length_take]; omega
    by_cases h1 : j < k
    · rw [if_pos h1, List.getElem?_append_left (by omega), List.getElem?_take_of_lt h1]
    · rw [if_neg h1, List.getElem?_append_right (by omega), lt]
      by_cases h3 : j = k
      · rw [if_pos h3]; subst h3; simp
      · rw [if_neg h3, if_neg (by omega)]
        obtain ⟨q, rfl⟩ : ∃ q, j = k + 1 + q := ⟨j - k - 1, by omega⟩
        rw [show k + 1 + q - k = q + 1 by omega, List.getElem?_cons_succ, List.getElem?_drop]
        split
        · congr 1; omega
        · congr 1; omega
  · rw [List.getElem?_eq_none (by rw [insertMess_length h]; omega), List.getElem?_eq_none (by rw [l]; omega)]

theorem removeMess_ok {c : List (Slot α)} {k n : Nat} (hn : 0 < n) (h : k + n ≤ c.length) (h2 : c.length ≤ k + 2 * n) : removeMess c k n = c.take k ++ c.drop (k + n) := by
  apply List.ext_getElem?
  intro j
  have lt : (c.take k).length = k := by rw [List.length_take]; omega
  unfold removeMess
  by_cases hj : j < c.length - n
  · rw [List.getElem?_map, List.getElem?_range hj, Option.map_some]
    by_cases h1 : j < k
    · rw [if_pos h1, List.getElem?_append_left (by omega), List.getElem?_take_of_lt h1, List.getElem?_eq_getElem (by omega)]; rfl
    · rw [if_neg h1, if_pos (by omega), List.getElem?_append_right (by omega), lt, List.getElem?_drop]
      have e : topOf n c.length j = k + n + (j - k) := by
        unfold topOf
        have : (c.length - 1 - j) / n = 1 := Nat.div_eq_of_lt_le (by omega) (by omega)
        rw [this]; omega
      rw [e, List.getElem?_eq_getElem (by omega)]; rfl
  · rw [List.getElem?_eq_none (by simp; omega), List.getElem?_eq_none (by simp; omega)]

/-- the elements the range argument designates -/
def Op.srcSlots (s : St α) : Op α → List (Slot α)
  | .setArr _ src _ | .addN _ src _ => Arr.srcSlots s src
  | .assign _ j _ => ((blk s j).map Blk.content).getD []
  | _ => []

/-- the element argument -/
def Op.itemSlot (s : St α) : Op α → Slot α
  | .setItem _ _ v _ | .insert _ _ v _ => Arr.itemSlot s v
  | _ => .raw

theorem want_smooth {T : Ty α} {s : St α} {op : Op α} {c : List (Slot α)} (h : T.triv = true ∨ Smooth c.length op) (hb : ¬ op.beyond c.length) (hi : op.self? ≠ none) :
    want T s c op = listOp .val (.val T.z) (op.srcSlots s) (op.itemSlot s) c op := by
  cases op with
  | new => exact absurd rfl hi
  | copy _ _ => exact absurd rfl hi
  | moveNew _ => exact absurd rfl hi
  | moveAssign _ _ => exact absurd rfl hi
  | del _ => exact absurd rfl hi
  | insert i k v al =>
    simp only [want, listOp, inserted, Op.itemSlot]
    simp only [Op.beyond] at hb
    by_cases hk : T.triv = true ∨ k = c.length
    · rw [if_pos hk]; simp
    · rw [if_neg hk]
      refine insertMess_ok (by omega) ?_
      rcases h with h | h
      · exact absurd (.inl h) hk
      · exact h
  | remove i k n al =>
    simp only [want, listOp, removed]
    split
    · rename_i h
      rcases h with h | h
      · subst h; simp
      · rw [List.take_of_length_le h, List.drop_eq_nil_of_le (by omega), List.append_nil]
    · split
      · rename_i h; rw [h.1, List.take_zero, List.drop_eq_nil_of_le (by omega)]; rfl
      · have e : c.drop (k + n) = c.drop (k + min n (c.length - k)) := by
          rcases Nat.le_total n (c.length - k) with h | h
          · rw [Nat.min_eq_left h]
          · rw [Nat.min_eq_right h, List.drop_eq_nil_of_le (by omega), List.drop_eq_nil_of_le (by omega)]
        rw [e]
        split
        · rfl
        · rename_i t
          refine removeMess_ok (by omega) (by omega) ?_
          rcases h with h | h
          · exact absurd h t
          · simp only [Smooth] at h; omega
  | _ => rfl

/-- **C19 (partial).**  For element types with their own constructors, destructor and assignments every member function still has the effect of the list operation on the elements (which may be
moved-from ones), provided `Insert` has at most two elements behind its position and `Remove` has at most as many elements behind the removed ones as it removes.  Without the proviso it is false in every
such call (`C19_insert_fails`, `C19_remove_fails`). -/
theorem C19_list_ops_partial {T : Ty α} {ops s op i d s'} (r : Run T init ops s) (hv : Valid T s op) (hf : Few s) (hi : op.self? = some i) (hd : blk s i = some d)
    (hsm : Smooth d.size op) (hs : step T s op = .ret .ok s') :
    ∃ d', blk s' i = some d' ∧ d'.content = listOp .val (.val T.z) (op.srcSlots s) (op.itemSlot s) d.content op := by
  have inv := run_inv r (inv_init T)
  have A := member_step inv hf hv hi hd
  rw [hs] at A
  obtain ⟨_, _, _, d', h1, h2⟩ := A
  have hl := blk_length inv hd
  refine ⟨d', h1, ?_⟩
  rw [h2.ok rfl, want_smooth (.inr (by rw [hl]; exact hsm)) (by rw [hl]; intro h; have := h2.bounds.2 h; cases this) (by rw [hi]; exact nofun)]

/-- Whatever the operation, element lifetimes stay in order: in every history exactly the first `GetSize()` places of a block hold constructed (possibly moved-from) elements and the others are raw memory,
so every constructed element is destroyed exactly once; and no operation constructs over a live element, assigns to or destroys a dead one (`ub` is never reached). -/
theorem C19_lifetimes {T : Ty α} (t : T.triv = false) {ops s} (r : Run T init ops s) :
    (∀ op, Valid T s op → Few s → step T s op ≠ .ub) ∧
    ∀ k d, blk s k = some d → d.size ≤ d.buf.length ∧ ∀ j x, d.buf[j]? = some x → (j < d.size → x ≠ .raw) ∧ (d.size ≤ j → x = .raw) := by
  have inv := run_inv r (inv_init T)
  refine ⟨fun op hv hf e => ?_, fun k d hd => ?_⟩
  · obtain ⟨s', e', _⟩ := step_safe inv hf hv
    rw [e] at e'; cases e'
  · obtain ⟨a, ha, hm⟩ := live_of_blk hd
    have g := inv.good hm
    refine ⟨g.le, fun j x hx => ⟨fun hj h => ?_, fun hj => ?_⟩⟩
    · subst h; have := g.live j _ hj hx; cases this
    · have hl := lt_of_get hx
      have := g.rest t j hj hl
      rw [hx] at this; cases this; rfl

/-- the number of elements is right also where the elements are not -/
theorem C19_sizes {T : Ty α} {ops s op i d s'} (r : Run T init ops s) (hv : Valid T s op) (hf : Few s) (hi : op.self? = some i) (hd : blk s i = some d)
    (hs : step T s op = .ret .ok s') :
    ∃ d', blk s' i = some d' ∧ d'.size = (listOp .val (.val T.z) (op.srcSlots s) (op.itemSlot s) d.content op).length := by
  have inv := run_inv r (inv_init T)
  have A := member_step inv hf hv hi hd
  rw [hs] at A
  obtain ⟨inv', _, _, d', h1, h2⟩ := A
  have hl := blk_length inv hd
  refine ⟨d', h1, ?_⟩
  rw [← blk_length inv' h1, h2.ok rfl]
  have nb : ¬ op.beyond d.content.length := by rw [hl]; intro h; have := h2.bounds.2 h; cases this
  by_cases hsm : T.triv = true ∨ Smooth d.content.length op
  · rw [want_smooth hsm nb (by rw [hi]; exact nofun)]
  · generalize d.content = c at *
    have t : ¬ T.triv = true := fun t => hsm (.inl t)
    cases op with
    | insert i k v al =>
      simp only [Op.beyond] at nb
      have : c.length > k + 2 := Nat.lt_of_not_le fun h => hsm (.inr h)
      simp only [want, inserted, listOp]
      rw [if_neg (fun h => h.elim t (fun h => by omega)), insertMess_length (by omega)]
      simp; omega
    | remove i k n al =>
      have : ¬ (c.length ≤ k + 2 * n ∨ n = 0) := fun h => hsm (.inr h)
      simp only [want, removed, listOp]
      rw [if_neg (by omega), if_neg (by omega), if_neg t]
      simp [removeMess]; omega
    | _ => exact absurd (.inr trivial) hsm

/-- **C19 is false for `Insert`:** every successful `Insert` with more than two elements behind the insertion point leaves a moved-from element right behind the inserted one. -/
theorem C19_insert_fails {T : Ty α} (t : T.triv = false) {ops s i k v al d s'} (r : Run T init ops s) (hv : Valid T s (.insert i k v al)) (hf : Few s) (hd : blk s i = some d)
    (hk : k + 2 < d.size) (hs : step T s (.insert i k v al) = .ret .ok s') :
    ∃ d', blk s' i = some d' ∧ d'.content[k + 1]? = some .moved := by
  have inv := run_inv r (inv_init T)
  have A := member_step inv hf hv rfl hd
  rw [hs] at A
  obtain ⟨_, _, _, d', h1, h2⟩ := A
  have hl := blk_length inv hd
  refine ⟨d', h1, ?_⟩
  rw [h2.ok rfl]
  simp only [want, inserted]
  rw [if_neg (by rw [t]; simp; omega), insertMess_get (by omega) (k + 1) (by omega), if_neg (by omega), if_neg (by omega), if_pos (by omega)]

/-- **C19 is false for `Remove`:** every successful `Remove` of `n` elements with more than `n` elements behind them leaves a moved-from element `n` places after the removal point. -/
theorem C19_remove_fails {T : Ty α} (t : T.triv = false) {ops s i k n al d s'} (r : Run T init ops s) (hv : Valid T s (.remove i k n al)) (hf : Few s) (hd : blk s i = some d)
    (hn : 0 < n) (hk : k + 2 * n < d.size) (hs : step T s (.remove i k n al) = .ret .ok s') :
    ∃ d', blk s' i = some d' ∧ d'.content[k + n]? = some .moved := by
  have inv := run_inv r (inv_init T)
  have A := member_step inv hf hv rfl hd
  rw [hs] at A
  obtain ⟨_, _, _, d', h1, h2⟩ := A
  have hl := blk_length inv hd
  refine ⟨d', h1, ?_⟩
  rw [h2.ok rfl]
  simp only [want, removed]
  rw [if_neg (by omega), if_neg (by omega), if_neg (by rw [t]; simp), Nat.min_eq_left (by omega)]
  unfold removeMess
  rw [List.getElem?_map, List.getElem?_range (by omega), Option.map_some, if_neg (by omega), if_neg (by omega)]

/-! ### C20: copy on write -/

/-- **C20, independence.**  In every history, operations on other handles leave a handle's elements, capacity and lock count alone. -/
theorem C20_others_run {T : Ty α} {ops s} (r : Run T init ops s) {ops' s' k} (r' : Run T s ops' s') (hk : ∀ op ∈ ops', k ∉ op.targets) (hl : k < s.hs.length) :
    (blk s' k).map look = (blk s k).map look := by
  induction r' generalizing ops with
  | nil => rfl
  | @cons s s1 s2 op rest hv hf hs r2 ih =>
    have r1 : Run T init (ops ++ [op]) s1 := r.append (.cons hv hf hs (.nil _))
    obtain ⟨x, e, _, h⟩ := step_safe (run_inv r (inv_init T)) hf hv
    rw [hs] at e; cases e
    have hk0 := hk op (by simp)
    have hl1 : k < s1.hs.length := by
      have := (h k hk0 hl).1
      rw [List.getElem?_eq_getElem hl] at this
      exact lt_of_get this
    rw [ih r1 (fun op ho => hk op (by simp [ho])) hl1, (h k hk0 hl).2]

/-- a copy has the elements of the original and is not locked; it fails only for lack of memory (for the copy of a locked array, which gets its own storage) -/
theorem C20_copy {T : Ty α} {ops s j al e} (r : Run T init ops s) (hv : Valid T s (.copy j al)) (hf : Few s) (he : blk s j = some e) :
    (∃ s' d', step T s (.copy j al) = .ret .ok s' ∧ blk s' s.hs.length = some d' ∧ d'.content = e.content ∧ d'.locks = 0) ∨ (step T s (.copy j al) = .thr s ∧ al = none) := by
  rcases copy_step (run_inv r (inv_init T)) hf hv he with ⟨s', d', h1, _, _, _, h2, h3, h4⟩ | h
  · exact .inl ⟨s', d', h1, h2, h3, h4⟩
  · exact .inr h

/-- moving an unlocked array hands its elements over and leaves the source empty -/
theorem C20_moveNew {T : Ty α} {ops s j e} (r : Run T init ops s) (hv : Valid T s (.moveNew j)) (he : blk s j = some e) :
    ∃ s', step T s (.moveNew j) = .ret .ok s' ∧ blk s' s.hs.length = some e ∧ (blk s' j).map Blk.content = some [] := by
  obtain ⟨s', h1, _, h2, h3⟩ := moveNew_step (run_inv r (inv_init T)) hv he
  exact ⟨s', h1, h2, by rw [h3]; simp [Blk.content, emptyBlk]⟩

/-- move assignment hands the elements over and leaves the source empty, unless both handles already share their storage, when nothing changes -/
theorem C20_moveAssign {T : Ty α} {ops s i j d e} (r : Run T init ops s) (hf : Few s) (hv : Valid T s (.moveAssign i j)) (hd : blk s i = some d) (he : blk s j = some e) :
    ∃ s', step T s (.moveAssign i j) = .ret .ok s' ∧ blk s' i = some e ∧ ((blk s' j).map Blk.content = some [] ∨ (s.hs[i]? = s.hs[j]? ∧ blk s' j = some e)) := by
  obtain ⟨s', h1, _, h2, h3⟩ := moveAssign_step (run_inv r (inv_init T)) hf hv hd he
  refine ⟨s', h1, h2, h3.imp (fun h => by rw [h]; simp [Blk.content, emptyBlk]) id⟩

/-- **C20, lifetime (partial).**  In every history of valid operations `ub` is never reached; every live handle refers to a live block; a heap block is live exactly while some handle refers to it, so it is
freed exactly when its last handle lets go; its reference count is the number of handles, and a locked block has exactly one handle: a locked array is never shared.

Missing for the full claim: the calls `Valid` excludes because it is false for them (`C20_assign_locked_fails` leaks a reference; `C18_insert_alias_ub_fails`, `C18_addN_alias_ub_fails` read freed storage;
moving a locked array ends the program, `C20_move_locked_aborts`); the `SOO` policy. -/
theorem C20_lifetime_partial {T : Ty α} {ops s} (r : Run T init ops s) :
    (∀ op, Valid T s op → Few s → step T s op ≠ .ub) ∧
    (∀ (i a : Nat), s.hs[i]? = some (some a) → ∃ d, s.mem a = some d) ∧
    (∀ a, a ≠ 0 → ((∃ d, s.mem a = some d) ↔ ∃ i : Nat, s.hs[i]? = some (some a))) ∧
    (∀ a d, a ≠ 0 → s.mem a = some d → (0 < d.iRef ∧ d.iRef = (s.hs.count (some a) : Int)) ∨ (d.iRef < 0 ∧ s.hs.count (some a) = 1)) := by
  have inv := run_inv r (inv_init T)
  refine ⟨?_, ?_, ?_, ?_⟩
  · intro op hv hf e
    obtain ⟨s', e', _⟩ := step_safe inv hf hv
    rw [e] at e'; cases e'
  · intro i a h; exact inv.live (cnt_pos h)
  · intro a ha
    constructor
    · rintro ⟨d, hd⟩; exact cnt_pos_iff.1 (inv.blk a d ha hd).2.1
    · rintro ⟨i, h⟩; exact inv.live (cnt_pos h)
  · intro a d ha hd
    have := inv.blk a d ha hd
    unfold cnt at this
    omega

/-- after every Array of the program is destroyed, no heap block is left -/
theorem C20_no_leak_partial {T : Ty α} {ops s} (r : Run T init ops s) (h : ∀ (i : Nat) x, s.hs[i]? = some x → x = none) : ∀ a, a ≠ 0 → s.mem a = none := by
  intro a ha
  cases e : s.mem a with
  | none => rfl
  | some d =>
    obtain ⟨i, hi⟩ := ((C20_lifetime_partial r).2.2.1 a ha).1 ⟨d, e⟩
    have := h i _ hi
    cases this

/-- **C20, locked arrays.**  A locked array shares its storage with nobody. -/
theorem C20_locked_unshared {T : Ty α} {ops s i} (r : Run T init ops s) (h : IsLocked s i) : ¬ SharedWith s i := by
  have inv := run_inv r (inv_init T)
  obtain ⟨d, hd, hl⟩ := h
  obtain ⟨p, hp, hm⟩ := live_of_blk hd
  have w : WF T s.mem (plus (cnt (s.hs.set i none)) p) := by rw [← cnt_split hp]; exact inv
  have p0 : p ≠ 0 := by
    rintro rfl
    rw [inv.zero] at hm; cases hm
    simp [Blk.isLocked, emptyBlk, imax] at hl
  intro hs
  exact locked_not_shared hl ((sharedWith_iff hp hm p0 w).1 hs)

/-- **C19, what counts as undefined.** Elements with constructors: constructing where an element lives, assigning to or destroying where none lives, reading where none lives, and anything beyond the storage are
undefined – and nothing else is, so the theorems that exclude undefined behaviour exclude exactly these. -/
theorem C19_undefined {T : Ty α} (h : T.triv = false) (b : Buf α) (k : Nat) (v : Slot α) :
    (cons1 T b k v = none ↔ b.length ≤ k ∨ (∃ x, b[k]? = some x ∧ x ≠ .raw) ∨ v = .raw) ∧
    (asg1 T b k v = none ↔ b.length ≤ k ∨ b[k]? = some .raw ∨ v = .raw) ∧
    (des1 T b k = none ↔ b.length ≤ k ∨ b[k]? = some .raw) := by
  have e : b[k]? = none ↔ b.length ≤ k := List.getElem?_eq_none_iff
  unfold cons1 asg1 des1
  rw [h, ← e]
  cases hb : b[k]? with
  | none => simp
  | some x => cases x <;> cases v <;> simp [Slot.alive]

/-- `Reserve` on one block -/
theorem reserve_room {T : Ty α} {o m p d n al hr m' q} (h : WF T m (plus o p)) (hb : Bd o) (hd : m p = some d) (hf : Fresh T m p al) (e : reserve T m p n al = .ret hr m' q) (he : hr = .ok) :
    ∃ d', m' q = some d' ∧ n ≤ d'.buf.length := by
  subst he
  unfold reserve at e; rw [hd] at e; dsimp only at e
  unfold withLock at e
  rcases acquire_ok (need := n) (grow := n) h hb hd hf with ⟨a, _⟩ | ⟨a, _⟩ | ⟨n0, s0, hs, m1, a, L⟩ | ⟨m1, q1, d1, a, A⟩
  · rw [a] at e; cases e
  · rw [a] at e; cases e
  · rw [a] at e; dsimp only at e
    unfold finish at e
    cases hq : m1 0 with
    | none => rw [hq] at e; cases e
    | some d0 =>
      rw [hq] at e; dsimp only at e
      rw [if_pos rfl] at e
      split at e
      · cases e; exact ⟨d0, hq, by omega⟩
      · cases e
  · rw [a] at e; dsimp only at e
    have room := A.room
    rw [ite_self] at room
    unfold finish at e; rw [A.get] at e; dsimp only at e
    rw [if_neg A.nz] at e
    cases hu : unlockBlk d1 with
    | none => rw [hu] at e; cases e
    | some d2 =>
      rw [hu] at e; cases e
      refine ⟨d2, by simp [upd], ?_⟩
      have : d2.buf = d1.buf := by
        unfold unlockBlk at hu
        split at hu <;> first | (cases hu; rfl) | (split at hu <;> first | (cases hu; rfl) | cases hu) | cases hu
      rw [this]; exact room

/-- **C18, `Reserve`.** After a successful `Reserve(n)` the array has room for `n` elements, and its elements are as before. -/
theorem C18_reserve {T : Ty α} {ops s i n al s'} (r : Run T init ops s) (hv : Valid T s (.reserve i n al)) (hf : Few s) (hs : step T s (.reserve i n al) = .ret .ok s') :
    ∃ d d', blk s i = some d ∧ blk s' i = some d' ∧ n ≤ d'.buf.length ∧ d'.content = d.content := by
  have inv := run_inv r (inv_init T)
  obtain ⟨p, d, hp, hm, hb, w⟩ := handle_facts inv hv.1
  have A := member_step inv hf hv rfl hb
  rw [hs] at A
  obtain ⟨_, _, _, d', h1, h2⟩ := A
  refine ⟨d, d', hb, h1, ?_, h2.ok rfl⟩
  have e : step T s (.reserve i n al) = onHandle s i (fun m p => reserve T m p n al) := rfl
  rw [e] at hs
  unfold onHandle at hs; rw [hp] at hs; dsimp only at hs
  split at hs
  · cases hs
  · cases hs
  · rename_i hr m' q hq
    cases hs
    obtain ⟨d2, g1, g2⟩ := reserve_room w (few_bd0 hf i) hm (fresh_of hp hm w hv.2) hq rfl
    have lt := lt_of_get hp
    have : blk (⟨m', s.hs.set i (some q)⟩ : St α) i = m' q := by
      unfold blk; simp [List.getElem?_set, lt]
    rw [this, g1] at h1; cases h1
    exact g2

/-- **C20, locked arrays.**  Whatever valid operation is performed, short of destroying the array itself, a locked array keeps its block and its capacity: pointers into it stay good. -/
theorem C20_locked_stays {T : Ty α} {ops s op i s' d} (r : Run T init ops s) (hv : Valid T s op) (hf : Few s) (hd : blk s i = some d) (hl : d.isLocked) (hne : op ≠ .del i)
    (hs : (step T s op).st = some s') : s'.hs[i]? = s.hs[i]? ∧ ∃ d', blk s' i = some d' ∧ d'.buf.length = d.buf.length := by
  have inv := run_inv r (inv_init T)
  obtain ⟨x, e, inv', same⟩ := step_safe inv hf hv
  rw [hs] at e; cases e
  obtain ⟨p, hp, hm⟩ := live_of_blk hd
  by_cases ht : i ∈ op.targets
  · have mem : op.self? = some i → s'.hs[i]? = s.hs[i]? ∧ ∃ d', blk s' i = some d' ∧ d'.buf.length = d.buf.length := fun hi => member_stay hv hi hd hl hs
    cases op with
    | new => simp [Op.targets] at ht
    | copy _ _ => simp [Op.targets] at ht
    | moveNew j => simp [Op.targets] at ht; subst ht; exact absurd ⟨d, hd, hl⟩ hv.2
    | moveAssign a b =>
      simp [Op.targets] at ht
      rcases ht with rfl | rfl
      · exact absurd ⟨d, hd, hl⟩ hv.2.2.1
      · exact absurd ⟨d, hd, hl⟩ hv.2.2.2
    | del j => simp [Op.targets] at ht; subst ht; exact absurd rfl hne
    | _ => simp [Op.targets] at ht; subst ht; exact mem rfl
  · obtain ⟨h1, h2⟩ := same i ht (lt_of_get hp)
    refine ⟨h1, ?_⟩
    obtain ⟨d', g1, _, _, g2⟩ := look_content h2.symm hd
    exact ⟨d', g1, g2⟩

/-- a locked array stays locked until it is unlocked, and `LockBufferAndSetSize`/`UnlockBuffer` change the lock count by one -/
theorem C20_lock_count {T : Ty α} {ops s op i d s'} (r : Run T init ops s) (hv : Valid T s op) (hf : Few s) (hi : op.self? = some i) (hd : blk s i = some d) (hl : d.isLocked)
    (hs : step T s op = .ret .ok s') :
    ∃ d', blk s' i = some d' ∧ match op with
      | .lock _ _ _ => d'.locks = d.locks + 1
      | .unlock _ => d'.locks + 1 = d.locks
      | _ => d'.locks = d.locks := by
  have A := member_step (run_inv r (inv_init T)) hf hv hi hd
  rw [hs] at A
  obtain ⟨_, _, _, d', h1, h2⟩ := A
  refine ⟨d', h1, ?_⟩
  have := h2.locks rfl
  cases op <;> first | exact this | exact this.elim id (fun h => absurd h.2.2.1 (locked_not_shared hl))

end Verif.Arr
