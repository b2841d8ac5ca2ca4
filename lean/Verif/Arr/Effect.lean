import Verif.Arr.Props

/-! C18, C19: what the member functions do to the elements. -/

namespace Verif.Arr

variable {α : Type}

/-! ### The list operations (specification) -/

/-- the list operation of the same name: `z` is the default element, `src` and `x` are the values of the arguments -/
def listOp {β : Type} (inj : α → β) (z : β) (src : List β) (x : β) (l : List β) : Op α → List β
  | .clear _ => []
  | .setArr _ _ _ => src
  | .assign _ _ _ => src
  | .resize _ n _ | .lock _ n _ => l.take n ++ List.replicate (n - l.length) z
  | .write _ k v => l.set k (inj v)
  | .setItem _ k _ _ => l.set k x
  | .add _ v _ => l ++ [inj v]
  | .addN _ _ _ => l ++ src
  | .insert _ k _ _ => l.take k ++ x :: l.drop k
  | .remove _ k n _ => l.take k ++ l.drop (k + n)
  | _ => l

/-- the value of an element (none: moved from or not constructed) -/
def Slot.val? : Slot α → Option α
  | .val a => some a
  | _ => none

/-- the values a user reads from handle `k` -/
def items (s : St α) (k : Nat) : List α :=
  match blk s k with
  | some d => d.content.filterMap Slot.val?
  | none => []

/-- the values of the range argument -/
def Op.srcItems (s : St α) : Op α → List α
  | .setArr _ (.ext l) _ | .addN _ (.ext l) _ => l
  | .setArr _ (.of h off n) _ | .addN _ (.of h off n) _ => ((items s h).drop off).take n
  | .assign _ j _ => items s j
  | _ => []

/-- the value of the element argument -/
def Op.item (T : Ty α) (s : St α) : Op α → α
  | .setItem _ _ (.ext v) _ | .insert _ _ (.ext v) _ => v
  | .setItem _ _ (.of h off) _ | .insert _ _ (.of h off) _ => (items s h)[off]?.getD T.z
  | _ => T.z

/-- all elements of all arrays have values -/
def Whole (s : St α) : Prop := ∀ k d, blk s k = some d → ∃ l : List α, d.content = l.map .val

theorem filterMap_map (l : List α) : (l.map Slot.val).filterMap Slot.val? = l := by
  induction l with
  | nil => rfl
  | cons a t ih => rw [List.map_cons, List.filterMap_cons_some (f := Slot.val?) (a := .val a) (b := a) rfl, ih]

theorem items_eq {s : St α} {k : Nat} {d : Blk α} {l : List α} (h : blk s k = some d) (hc : d.content = l.map .val) : items s k = l := by
  unfold items; rw [h]; dsimp only; rw [hc, filterMap_map]

theorem whole_items {s : St α} (w : Whole s) {k : Nat} {d : Blk α} (h : blk s k = some d) : d.content = (items s k).map .val := by
  obtain ⟨l, hl⟩ := w k d h
  rw [items_eq h hl, hl]

theorem srcSlots_items {s : St α} (w : Whole s) {i : Nat} (src : Src α) (h : SrcValid s i src) :
    srcSlots s src = (match src with | .ext l => l | .of h off n => ((items s h).drop off).take n).map .val := by
  cases src with
  | ext l => rfl
  | of h' off n =>
    obtain ⟨⟨d, hb, _⟩, _⟩ := h
    simp only [srcSlots, hb]
    rw [whole_items w hb, ← List.map_drop, ← List.map_take]

theorem itemSlot_items {T : Ty α} {s : St α} (w : Whole s) (v : Src1 α) (h : ItemExists s v) (hg : ∀ k d, blk s k = some d → d.content.length = d.size) :
    itemSlot s v = .val (match v with | .ext v => v | .of h off => (items s h)[off]?.getD T.z) := by
  cases v with
  | ext v => rfl
  | of h' off =>
    obtain ⟨d, hb, hr⟩ := h
    simp only [itemSlot, hb]
    have hl := hg _ _ hb
    rw [whole_items w hb] at hl
    rw [List.length_map] at hl
    show (d.content[off]?).getD Slot.raw = _
    rw [whole_items w hb, List.getElem?_map, List.getElem?_eq_getElem (by omega)]
    rfl

theorem blk_length {T : Ty α} {s : St α} (inv : Inv T s) {k : Nat} {d : Blk α} (h : blk s k = some d) : d.content.length = d.size := by
  obtain ⟨a, ha, hm⟩ := live_of_blk h
  exact content_length (inv.good hm)

/-- for trivially copyable elements the code does what the list operation does -/
theorem want_triv {T : Ty α} (t : T.triv = true) {s : St α} (inv : Inv T s) (w : Whole s) {op : Op α} {i : Nat} {d : Blk α} (hv : Valid T s op) (hd : blk s i = some d) (hi : op.self? = some i) :
    want T s d.content op = (listOp id T.z (op.srcItems s) (op.item T s) (items s i) op).map .val := by
  have hc := whole_items w hd
  generalize items s i = l at *
  cases op with
  | new => cases hi
  | copy _ _ => cases hi
  | moveNew _ => cases hi
  | moveAssign _ _ => cases hi
  | del _ => cases hi
  | clear i => rfl
  | setArr i src al =>
    simp only [want, listOp]
    rw [srcSlots_items w src hv.2.2]
    cases src <;> rfl
  | assign i j al =>
    obtain ⟨a, hj⟩ := hv.2.1
    obtain ⟨e, he⟩ := inv.live (cnt_pos hj)
    have hb : blk s j = some e := by rw [blk_eq hj, he]
    simp only [want, listOp, hb, Op.srcItems]
    exact whole_items w hb
  | reserve i n al => exact hc
  | resize i n al => simp [want, listOp, hc]
  | lock i n al => simp [want, listOp, hc]
  | unlock i => exact hc
  | write i k v => simp [want, listOp, hc]
  | setItem i k v al =>
    simp only [want, listOp]
    rw [itemSlot_items (T := T) w v hv.2.2 (fun k d h => blk_length inv h), hc, List.map_set]
    cases v <;> rfl
  | add i v al => simp [want, listOp, hc]
  | addN i src al =>
    simp only [want, listOp]
    rw [srcSlots_items w src hv.2.2, hc, List.map_append]
    cases src <;> rfl
  | insert i k v al =>
    simp only [want, listOp, inserted]
    rw [if_pos (.inl t), itemSlot_items (T := T) w v hv.2.2.1 (fun k d h => blk_length inv h), hc]
    cases v <;> simp [Op.item]
  | remove i k n al =>
    simp only [want, listOp, removed]
    rw [if_pos t, hc]
    simp only [List.length_map, List.map_append, List.map_take, List.map_drop]
    split
    · rename_i h
      rcases h with h | h
      · subst h; simp
      · rw [List.take_of_length_le (by simpa using h), List.drop_eq_nil_of_le (by simp; omega), List.append_nil]
    · split
      · rename_i h; rw [h.1, List.take_zero, List.drop_eq_nil_of_le (by simp; omega)]; rfl
      · rcases Nat.le_total n (l.length - k) with h | h
        · rw [Nat.min_eq_left h]
        · rw [Nat.min_eq_right h, List.drop_eq_nil_of_le (by simp; omega), List.drop_eq_nil_of_le (by simp; omega)]

/-! ### moving handles -/

theorem moveNew_step {T : Ty α} {s : St α} {j e} (inv : Inv T s) (hv : Valid T s (.moveNew j)) (he : blk s j = some e) :
    ∃ s', step T s (.moveNew j) = .ret .ok s' ∧ s'.hs.length = s.hs.length + 1 ∧ blk s' s.hs.length = some e ∧ blk s' j = some emptyBlk := by
  obtain ⟨⟨a, hj⟩, hn⟩ := hv
  rw [blk_eq hj] at he
  simp only [step, hj, he]
  rw [if_neg (fun h => hn ⟨e, by rw [blk_eq hj, he], h⟩)]
  have hl := lt_of_get hj
  refine ⟨_, rfl, by simp, ?_, ?_⟩
  · unfold blk; dsimp only; rw [List.getElem?_append_right (by simp), List.length_set, Nat.sub_self]; exact he
  · unfold blk; dsimp only; rw [List.getElem?_append_left (by simpa using hl), List.getElem?_set_self hl]; exact inv.zero

theorem moveAssign_step {T : Ty α} {s : St α} {i j d e} (inv : Inv T s) (few : Few s) (hv : Valid T s (.moveAssign i j)) (hd : blk s i = some d) (he : blk s j = some e) :
    ∃ s', step T s (.moveAssign i j) = .ret .ok s' ∧ s'.hs.length = s.hs.length ∧ blk s' i = some e ∧
      (blk s' j = some emptyBlk ∨ (s.hs[i]? = s.hs[j]? ∧ blk s' j = some e)) := by
  obtain ⟨⟨p, hp⟩, ⟨a, hj⟩, hn1, hn2⟩ := hv
  have he0 := he
  have hd0 := hd
  rw [blk_eq hj] at he
  rw [blk_eq hp] at hd
  simp only [step, hp, hj]
  by_cases hpa : p = a
  · subst hpa
    rw [if_pos rfl]
    rw [he] at hd; cases hd
    exact ⟨s, rfl, rfl, hd0, .inr ⟨rfl, he0⟩⟩
  · rw [if_neg hpa, he, hd]; dsimp only
    rw [if_neg (fun h => h.elim (fun h => hn2 ⟨e, he0, h⟩) (fun h => hn1 ⟨d, hd0, h⟩))]
    have hij : i ≠ j := by intro e; subst e; rw [hp] at hj; cases hj; exact hpa rfl
    have w : WF T s.mem (plus (cnt (s.hs.set i none)) p) := by rw [← cnt_split hp]; exact inv
    obtain ⟨m', e', w', fr, ne, _⟩ := release_ok w (few_bd0 few i)
    rw [e']
    refine ⟨_, rfl, by simp, ?_, .inl ?_⟩
    · unfold blk; dsimp only
      rw [List.getElem?_set_self (by simpa using lt_of_get hp)]; dsimp only
      rw [ne a (Ne.symm hpa), he]
    · unfold blk; dsimp only
      rw [List.getElem?_set_ne hij, List.getElem?_set_self (lt_of_get hj)]
      exact w'.zero

theorem len_le {T : Ty α} {s s' : St α} {op : Op α} (inv : Inv T s) (few : Few s) (hv : Valid T s op) (hs : (step T s op).st = some s') :
    s'.hs.length ≤ s.hs.length + (match op with | .new | .copy _ _ | .moveNew _ => 1 | _ => 0) := by
  have mem : ∀ i, op.self? = some i → Live s i → s'.hs.length = s.hs.length := by
    intro i hi hl
    obtain ⟨p, d, hp, hm, hb, w⟩ := handle_facts inv hl
    have := member_step inv few hv hi hb
    unfold WPost at this
    split at this
    · exact this.elim
    · exact this.elim
    · rename_i x e; rw [e] at hs; cases hs; exact this.2.2.1
    · rename_i hr x e; rw [e] at hs; cases hs; exact this.2.2.1
  cases op with
  | new => cases hs; simp
  | copy j al =>
    obtain ⟨p, e, hp, hm, hb, w⟩ := handle_facts inv hv.1
    rcases copy_step inv few hv hb with ⟨x, d', e1, _, _, h, _⟩ | ⟨e1, _⟩
    · rw [e1] at hs; cases hs; simp only; omega
    · rw [e1] at hs; cases hs; simp only; omega
  | moveNew j =>
    obtain ⟨p, e, hp, hm, hb, w⟩ := handle_facts inv hv.1
    obtain ⟨x, e1, h, _⟩ := moveNew_step inv hv hb
    rw [e1] at hs; cases hs; simp only; omega
  | del i =>
    obtain ⟨p, d, hp, hm, hb, w⟩ := handle_facts inv hv
    obtain ⟨m', e, w', fr, _⟩ := release_ok w (few_bd0 few i)
    simp only [step, hp, e] at hs
    cases hs; simp
  | moveAssign i j =>
    obtain ⟨_, d, _, _, hd, _⟩ := handle_facts inv hv.1
    obtain ⟨_, e, _, _, he, _⟩ := handle_facts inv hv.2.1
    obtain ⟨x, e1, h, _⟩ := moveAssign_step inv few hv hd he
    rw [e1] at hs; cases hs; simp only; omega
  | clear i => exact Nat.le_of_eq (mem i rfl hv)
  | unlock i => exact Nat.le_of_eq (mem i rfl hv)
  | write i _ _ =>
    obtain ⟨d, hd, _⟩ := hv
    obtain ⟨a, ha, _⟩ := live_of_blk hd
    exact Nat.le_of_eq (mem i rfl ⟨a, ha⟩)
  | _ => exact Nat.le_of_eq (mem _ rfl hv.1)

theorem look_content {x y : Option (Blk α)} (h : x.map look = y.map look) {d : Blk α} (hx : x = some d) : ∃ e, y = some e ∧ e.content = d.content ∧ e.locks = d.locks ∧ e.buf.length = d.buf.length := by
  subst hx
  cases y with
  | none => cases h
  | some e =>
    simp only [Option.map_some, look, Option.some.injEq, Prod.mk.injEq] at h
    exact ⟨e, rfl, h.1.symm, h.2.2.symm, h.2.1.symm⟩

theorem whole_empty : ∃ l : List α, (emptyBlk : Blk α).content = l.map .val := ⟨[], by simp [Blk.content, emptyBlk]⟩

/-- trivially copyable elements always have values -/
theorem whole_step {T : Ty α} (t : T.triv = true) {s s' : St α} {op : Op α} (inv : Inv T s) (few : Few s) (hv : Valid T s op) (w : Whole s) (hs : (step T s op).st = some s') : Whole s' := by
  obtain ⟨x, e, inv', same⟩ := step_safe inv few hv
  rw [hs] at e; cases e
  have old : ∀ k, k ∉ op.targets → k < s.hs.length → ∀ d, blk s' k = some d → ∃ l : List α, d.content = l.map .val := by
    intro k hk hl d hd
    obtain ⟨e, he, hc, _⟩ := look_content (same k hk hl).2 hd
    obtain ⟨l, h⟩ := w k e he
    exact ⟨l, by rw [← hc, h]⟩
  have bound : ∀ k d, blk s' k = some d → k < s'.hs.length := fun k d h => by obtain ⟨a, ha, _⟩ := live_of_blk h; exact lt_of_get ha
  have ln := len_le inv few hv hs
  have mem : ∀ i, op.self? = some i → op.targets = [i] → s'.hs.length ≤ s.hs.length → Live s i → Whole s' := by
    intro i hi ht hle hl k d' hd'
    by_cases hk : k = i
    · subst hk
      obtain ⟨p, d, hp, hm, hb, _⟩ := handle_facts inv hl
      have A := member_step inv few hv hi hb
      have kept : ∀ d'', blk s' k = some d'' → d''.content = d.content → ∃ l : List α, d'.content = l.map .val := by
        intro d'' h1 h2
        rw [hd'] at h1; cases h1
        obtain ⟨l, h⟩ := w k d hb
        exact ⟨l, by rw [h2, h]⟩
      unfold WPost at A
      split at A
      · exact A.elim
      · exact A.elim
      · rename_i x e; rw [e] at hs; cases hs
        obtain ⟨_, _, _, d'', h1, h2⟩ := A
        exact kept d'' h1 h2.1.1
      · rename_i hr x e; rw [e] at hs; cases hs
        obtain ⟨_, _, _, d'', h1, h2⟩ := A
        cases hr with
        | ok =>
          rw [hd'] at h1; cases h1
          exact ⟨_, by rw [h2.ok rfl, want_triv t inv w hv hb hi]⟩
        | oom => exact kept d'' h1 (h2.oom rfl).2.1
        | bounds => exact kept d'' h1 (h2.kept rfl).1
    · exact old k (by rw [ht]; simpa using hk) (by have := bound k d' hd'; omega) d' hd'
  cases op with
  | new =>
    intro k d hd
    by_cases hk : k < s.hs.length
    · exact old k (by simp [Op.targets]) hk d hd
    · have := bound k d hd
      simp only at ln
      have : k = s.hs.length := by omega
      subst this
      cases hs
      unfold blk at hd; dsimp only at hd
      rw [List.getElem?_append_right (Nat.le_refl _), Nat.sub_self] at hd
      have : s.mem 0 = some d := hd
      rw [inv.zero] at this; cases this; exact whole_empty
  | copy j al =>
    intro k d hd
    obtain ⟨p, e, hp, hm, hb, _⟩ := handle_facts inv hv.1
    by_cases hk : k < s.hs.length
    · exact old k (by simp [Op.targets]) hk d hd
    · have := bound k d hd
      simp only at ln
      have : k = s.hs.length := by omega
      subst this
      rcases copy_step inv few hv hb with ⟨x, d', e1, _, _, _, h1, h2, _⟩ | ⟨e1, _⟩
      · rw [e1] at hs; cases hs
        rw [hd] at h1; cases h1
        obtain ⟨l, h⟩ := w j e hb
        exact ⟨l, by rw [h2, h]⟩
      · rw [e1] at hs; cases hs; omega
  | moveNew j =>
    intro k d hd
    obtain ⟨p, e, hp, hm, hb, _⟩ := handle_facts inv hv.1
    obtain ⟨x, e1, _, h1, h2⟩ := moveNew_step inv hv hb
    rw [e1] at hs; cases hs
    by_cases hk : k < s.hs.length
    · by_cases hj : k = j
      · subst hj; rw [h2] at hd; cases hd; exact whole_empty
      · exact old k (by simpa [Op.targets] using hj) hk d hd
    · have := bound k d hd
      simp only at ln
      have : k = s.hs.length := by omega
      subst this
      rw [hd] at h1; cases h1; exact w j d hb
  | del i =>
    intro k d hd
    obtain ⟨p, d0, hp, hm, hb, w0⟩ := handle_facts inv hv
    obtain ⟨m', e, w', fr, _⟩ := release_ok w0 (few_bd0 few i)
    have hs0 := hs
    simp only [step, hp, e] at hs0
    by_cases hk : k = i
    · subst hk
      cases hs0
      unfold blk at hd; dsimp only at hd
      rw [List.getElem?_set_self (lt_of_get hp)] at hd; cases hd
    · exact old k (by simpa [Op.targets] using hk) (by have := bound k d hd; simp only at ln; omega) d hd
  | moveAssign i j =>
    intro k d hd
    obtain ⟨_, d0, _, _, hd0, _⟩ := handle_facts inv hv.1
    obtain ⟨_, e0, _, _, he0, _⟩ := handle_facts inv hv.2.1
    obtain ⟨x, e1, _, h1, h2⟩ := moveAssign_step inv few hv hd0 he0
    rw [e1] at hs; cases hs
    by_cases hi : k = i
    · subst hi; rw [hd] at h1; cases h1; exact w j d he0
    · by_cases hj : k = j
      · subst hj
        rcases h2 with h2 | ⟨_, h2⟩
        · rw [hd] at h2; cases h2; exact whole_empty
        · rw [hd] at h2; cases h2; exact w k d he0
      · exact old k (by simp [Op.targets, hi, hj]) (by have := bound k d hd; simp only at ln; omega) d hd
  | clear i => exact mem i rfl rfl ln hv
  | unlock i => exact mem i rfl rfl ln hv
  | write i _ _ =>
    have hv' := hv
    obtain ⟨d, hd, _⟩ := hv'
    obtain ⟨a, ha, _⟩ := live_of_blk hd
    exact mem i rfl rfl ln ⟨a, ha⟩
  | _ => exact mem _ rfl rfl ln hv.1

theorem whole_run {T : Ty α} (t : T.triv = true) {s ops s'} (r : Run T s ops s') (inv : Inv T s) (w : Whole s) : Whole s' := by
  induction r with
  | nil => exact w
  | cons hv hf hs _ ih =>
    obtain ⟨x, e, i, _⟩ := step_safe inv hf hv
    rw [hs] at e; cases e
    exact ih i (whole_step t inv hf hv w hs)

theorem whole_init : Whole (init : St α) := by
  intro k d h
  obtain ⟨a, ha, _⟩ := live_of_blk h
  simp [init] at ha

end Verif.Arr
