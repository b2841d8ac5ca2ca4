import Verif.Arr.Witness

/-!
C89: `Array::Sort` (include/YY/Base/Containers/Array.h 1315-1329), copy-on-write policy.

The library leaves the ordering to `qsort` of the C runtime, which is an arbitrary function here (`qs`), of which only the contract of the C standard is assumed (`QSort`): for a comparison that is a total
preorder the result is a permutation in ascending order. `qsort` moves elements as bytes, so it is undefined for element types that are not trivially copyable, as is reading an element without a value.
The comparison may leave by an exception (`esc`), where `qsort` is compiled so that exceptions pass; some permutation of the elements is then left behind.
-/

namespace Verif.Arr

variable {α : Type}

/-! ### model -/

/-- the values of the elements; `none`: one has no value -/
def valuesOf : List (Slot α) → Option (List α)
  | [] => some []
  | .val a :: t => (valuesOf t).map (a :: ·)
  | _ :: _ => none

/-- `qsort(GetData(), GetSize(), …)` on the locked block (1325) -/
def qsortEdit (T : Ty α) (qs : List α → List α) (d : Blk α) : Option (Blk α) :=
  if T.triv then
    match valuesOf d.content with
    | none => none
    | some l => some { d with buf := (qs l).map .val ++ d.buf.drop d.size }
  else none

/-- `Sort` (1315-1329). `S_FALSE` for fewer than two elements counts as success. `esc`: the comparison throws, `Unlock` (1327) is not reached. -/
def sort (T : Ty α) (m : Mem α) (p : Nat) (qs : List α → List α) (esc : Bool) (al : Al) : Res α :=
  match m p with
  | none => .ub
  | some d =>
    if d.size ≤ 1 then .ret .ok m p
    else if esc then
      match acquire T m p d 0 0 al with
      | .ret .ok m1 q =>
        match m1 q with
        | none => .ub
        | some d1 =>
          match qsortEdit T qs d1 with
          | none => .ub
          | some d2 => .thr (upd m1 q (some d2)) q
      | r => r
    else withLock T m p d 0 0 al (fun _ _ d1 => qsortEdit T qs d1)

/-- the call on handle `i` -/
def sortStep (T : Ty α) (s : St α) (i : Nat) (qs : List α → List α) (esc : Bool) (al : Al) : Out α :=
  onHandle s i (fun m p => sort T m p qs esc al)

/-! ### the contract of `qsort` -/

/-- the comparison is a total preorder, as the C standard asks (7.22.5) -/
structure TotalPre (cmp : α → α → Int) : Prop where
  flip : ∀ a b, cmp a b ≤ 0 ∨ cmp b a ≤ 0
  trans : ∀ a b c, cmp a b ≤ 0 → cmp b c ≤ 0 → cmp a c ≤ 0

/-- what `qsort` promises for such a comparison -/
def QSort (cmp : α → α → Int) (qs : List α → List α) : Prop :=
  TotalPre cmp → ∀ l, (qs l).Perm l ∧ (qs l).Pairwise (fun a b => cmp a b ≤ 0)

/-! ### proofs -/

theorem valuesOf_map (l : List α) : valuesOf (l.map Slot.val) = some l := by
  induction l with
  | nil => rfl
  | cons a t ih => simp [valuesOf, ih]

theorem qsort_edits {T : Ty α} (t : T.triv = true) {qs : List α → List α} {d : Blk α} {l : List α} (g : Good T d) (hc : d.content = l.map .val) (hl : (qs l).length = l.length) :
    Edits T (qsortEdit T qs) d ((qs l).map .val) := by
  have hn : l.length = d.size := by have := content_length g; rw [hc, List.length_map] at this; exact this
  refine ⟨{ d with buf := (qs l).map .val ++ d.buf.drop d.size }, ?_, ?_⟩
  · unfold qsortEdit; rw [if_pos t, hc, valuesOf_map]
  · have hle := g.le
    have := good_mk (T := T) (i := d.iRef) (n := d.size) (b := (qs l).map .val ++ d.buf.drop d.size) ((qs l).map .val) (by simp; omega) (by simp; omega)
      (fun j hj => by rw [List.getElem?_append_left (by simp; omega)])
      (fun x hx => by obtain ⟨y, _, rfl⟩ := List.mem_map.1 hx; rfl)
      (fun ht => by rw [t] at ht; cases ht)
    exact ⟨this.1, this.2, rfl, by simp; omega⟩

/-- outcome on the block of the handle -/
theorem sort_ok {T : Ty α} (t : T.triv = true) {o m p d al} {qs : List α → List α} {l : List α} (h : WF T m (plus o p)) (hb : Bd o) (hd : m p = some d) (hf : Fresh T m p al) (hc : d.content = l.map .val)
    (hl : ∀ l, (qs l).length = l.length) (esc : Bool) :
    Post T o m (sort T m p qs esc al)
      (fun hr d' => (d.size ≤ 1 ∧ hr = .ok ∧ Kept d d') ∨ (1 < d.size ∧ esc = false ∧ hr = .ok ∧ d'.content = (qs l).map .val ∧ d'.locks = d.locks ∧ (¬ d.isShared → d'.buf.length = d.buf.length)) ∨
        (1 < d.size ∧ hr = .oom ∧ al = none ∧ Kept d d'))
      (fun d' => 1 < d.size ∧ esc = true ∧ d'.content = (qs l).map .val ∧ d'.locks = d.locks + 1) := by
  unfold sort; rw [hd]; dsimp only
  by_cases h1 : d.size ≤ 1
  · rw [if_pos h1]; exact ⟨Loc.refl h, d, hd, .inl ⟨h1, rfl, Kept.refl d⟩⟩
  · rw [if_neg h1]
    have hA := acquire_ok (need := 0) (grow := 0) h hb hd hf
    cases esc with
    | true =>
      rw [if_pos rfl]
      rcases hA with ⟨e, ha⟩ | ⟨e, hlk, hg⟩ | ⟨n0, s0, _⟩ | ⟨m1, q, d1, e, A⟩
      · rw [e]; exact ⟨Loc.refl h, d, hd, .inr (.inr ⟨by omega, rfl, ha, Kept.refl d⟩)⟩
      · omega
      · omega
      · rw [e]; dsimp only; rw [A.get]; dsimp only
        obtain ⟨d2, e2, g2, c2, i2, l2⟩ := qsort_edits t A.good (A.content.trans hc) (hl l)
        rw [e2]; dsimp only
        refine ⟨A.loc.trans (loc_set A.loc.wf A.nz A.oth g2 ?_), d2, upd_eq _ _ _, by omega, rfl, c2, ?_⟩
        · right; rw [i2, A.ref]; exact lockRef_neg _
        · have hr := ref_cases h hd
          unfold Blk.locks; rw [i2, A.ref]; unfold lockRef; split <;> omega
    | false =>
      rw [if_neg (by decide)]
      unfold withLock
      rcases hA with ⟨e, ha⟩ | ⟨e, hlk, hg⟩ | ⟨n0, s0, _⟩ | ⟨m1, q, d1, e, A⟩
      · rw [e]; exact ⟨Loc.refl h, d, hd, .inr (.inr ⟨by omega, rfl, ha, Kept.refl d⟩)⟩
      · omega
      · omega
      · rw [e]; dsimp only
        have E := qsort_edits (qs := qs) t A.good (A.content.trans hc) (hl l)
        obtain ⟨m', d', e2, L, g, c, lk⟩ := finish_ok h hd A E
        rw [e2]
        refine ⟨L, d', g, .inr (.inl ⟨by omega, rfl, rfl, c, lk, fun hs => ?_⟩)⟩
        obtain ⟨d2, f2, _, _, _, l2⟩ := E
        have sb := (A.same hs (by rw [if_neg hs]; omega)).2
        unfold finish at e2
        rw [A.get] at e2; dsimp only at e2; rw [f2] at e2; dsimp only at e2
        rw [if_neg A.nz] at e2
        split at e2
        · cases e2
        · rename_i d3 e3
          simp only [Res.ret.injEq, true_and, and_true] at e2
          subst e2
          rw [upd_eq] at g; cases g
          have : d'.buf = d2.buf := by
            unfold unlockBlk at e3
            split at e3
            · cases e3; rfl
            · split at e3 <;> cases e3; rfl
          rw [this, l2, sb]

/-! ### histories with `Sort` -/

/-- the allocator's answer and the permutation `qsort` leaves -/
structure SortValid (T : Ty α) (s : St α) (i : Nat) (qs : List α → List α) (al : Al) : Prop where
  live : Live s i
  al : AlOk T s i al
  perm : ∀ l, (qs l).Perm l

/-- histories of valid operations and of calls of `Sort` (returning or throwing), for any comparison for which `qsort` at least permutes -/
inductive SRun (T : Ty α) : St α → St α → Prop
  | nil (s) : SRun T s s
  | op {s s' s'' op} : Valid T s op → Few s → (step T s op).st = some s' → SRun T s' s'' → SRun T s s''
  | sort {s s' s'' i qs esc al} : SortValid T s i qs al → Few s → (sortStep T s i qs esc al).st = some s' → SRun T s' s'' → SRun T s s''

/-- what one call does, as seen by the program -/
theorem sort_world {T : Ty α} (t : T.triv = true) {s : St α} {i : Nat} {qs : List α → List α} {al : Al} {esc : Bool} (inv : Inv T s) (few : Few s) (w : Whole s) (hv : SortValid T s i qs al) :
    ∃ d, blk s i = some d ∧ d.size = (items s i).length ∧
    WPost T s i (sortStep T s i qs esc al)
      (fun hr d' => (d.size ≤ 1 ∧ hr = .ok ∧ Kept d d') ∨ (1 < d.size ∧ esc = false ∧ hr = .ok ∧ d'.content = (qs (items s i)).map .val ∧ d'.locks = d.locks ∧ (¬ d.isShared → d'.buf.length = d.buf.length)) ∨
        (1 < d.size ∧ hr = .oom ∧ al = none ∧ Kept d d'))
      (fun d' => 1 < d.size ∧ esc = true ∧ d'.content = (qs (items s i)).map .val ∧ d'.locks = d.locks + 1) := by
  obtain ⟨p, d, hp, hm, hb, wf⟩ := handle_facts inv hv.live
  have hc := whole_items w hb
  refine ⟨d, hb, by rw [← blk_length inv hb, hc, List.length_map], ?_⟩
  exact onHandle_ok hp (sort_ok t wf (few_bd0 few i) hm (fresh_of hp hm wf hv.al) hc (fun l => (hv.perm l).length_eq) esc)

theorem sort_keeps {T : Ty α} (t : T.triv = true) {s s' : St α} {i : Nat} {qs : List α → List α} {al : Al} {esc : Bool} (inv : Inv T s) (few : Few s) (w : Whole s) (hv : SortValid T s i qs al)
    (hs : (sortStep T s i qs esc al).st = some s') : Inv T s' ∧ Whole s' ∧ Same s s' [i] ∧ s'.hs.length = s.hs.length := by
  obtain ⟨d, hb, hz, W⟩ := sort_world (esc := esc) t inv few w hv
  have key : ∀ d', Inv T s' → Same s s' [i] → s'.hs.length = s.hs.length → blk s' i = some d' → (∃ l : List α, d'.content = l.map .val) →
      Inv T s' ∧ Whole s' ∧ Same s s' [i] ∧ s'.hs.length = s.hs.length := by
    intro d' i1 sm len h1 h2
    refine ⟨i1, ?_, sm, len⟩
    intro k x hx
    by_cases hk : k = i
    · subst hk; rw [h1] at hx; cases hx; exact h2
    · obtain ⟨a, ha, _⟩ := live_of_blk hx
      have := (sm k (by simpa using hk) (by rw [← len]; exact lt_of_get ha)).2
      rw [hx] at this
      cases hy : blk s k with
      | none => rw [hy] at this; cases this
      | some y =>
        rw [hy] at this
        simp only [Option.map_some, look, Option.some.injEq, Prod.mk.injEq] at this
        obtain ⟨l, hl⟩ := w k y hy
        exact ⟨l, by rw [this.1, hl]⟩
  unfold WPost at W
  split at W
  · exact W.elim
  · exact W.elim
  · rename_i s1 e
    rw [e] at hs; cases hs
    obtain ⟨a, b, c, d', e1, _, _, e2, _⟩ := W
    exact key d' a b c e1 ⟨_, e2⟩
  · rename_i hr s1 e
    rw [e] at hs; cases hs
    obtain ⟨a, b, c, d', e1, e2⟩ := W
    refine key d' a b c e1 ?_
    rcases e2 with ⟨_, _, k⟩ | ⟨_, _, _, k, _⟩ | ⟨_, _, _, k⟩
    · obtain ⟨l, hl⟩ := w i d hb; exact ⟨l, k.1.trans hl⟩
    · exact ⟨_, k⟩
    · obtain ⟨l, hl⟩ := w i d hb; exact ⟨l, k.1.trans hl⟩

theorem srun_inv {T : Ty α} (t : T.triv = true) {s s'} (r : SRun T s s') (inv : Inv T s) (w : Whole s) : Inv T s' ∧ Whole s' := by
  induction r with
  | nil => exact ⟨inv, w⟩
  | op hv hf hs _ ih =>
    obtain ⟨x, e, i, _⟩ := step_safe inv hf hv
    have w' := whole_step t inv hf hv w hs
    rw [hs] at e; cases e
    exact ih i w'
  | sort hv hf hs _ ih =>
    have := sort_keeps t inv hf w hv hs
    exact ih this.1 this.2.1

/-! ### C89 -/

/-- **C89 (partial).** After any history with any number of sorts, `Sort` with a comparison that is a total preorder and does not throw leaves in the array a permutation of its elements in ascending order, or
reports missing memory (only if the allocator failed) and changes nothing. No other array changes, the number of locks stays, and an array that shares its memory with no other is sorted where it is.

Missing for the full claim: elements that are not trivially copyable (`C89_object_fails`), comparisons that throw (`C89_throw_fails`). -/
theorem C89_sort_partial {T : Ty α} (t : T.triv = true) {s : St α} (r : SRun T init s) (hf : Few s) {i : Nat} {al : Al} {cmp : α → α → Int} {qs : List α → List α} (hq : QSort cmp qs) (hc : TotalPre cmp)
    (hl : Live s i) (ha : AlOk T s i al) :
    ∃ hr s', sortStep T s i qs false al = .ret hr s' ∧ SRun T init s' ∧ Same s s' [i] ∧
      (∀ x y, blk s i = some x → blk s' i = some y → y.locks = x.locks ∧ (¬ x.isShared → hr = .ok → y.buf.length = x.buf.length)) ∧
      (if hr = .ok then (items s' i).Perm (items s i) ∧ (items s' i).Pairwise (fun a b => cmp a b ≤ 0) else al = none ∧ items s' i = items s i) := by
  obtain ⟨inv, w⟩ := srun_inv t r (inv_init T) whole_init
  have hv : SortValid T s i qs al := ⟨hl, ha, fun l => (hq hc l).1⟩
  obtain ⟨d, hb, hz, W⟩ := sort_world (esc := false) t inv hf w hv
  have hcnt := whole_items w hb
  have app : ∀ {a b c : St α}, SRun T a b → SRun T b c → SRun T a c := by
    intro a b c h1
    induction h1 with
    | nil => exact id
    | op x y z _ ih => exact fun h => .op x y z (ih h)
    | sort x y z _ ih => exact fun h => .sort x y z (ih h)
  unfold WPost at W
  split at W
  · exact W.elim
  · exact W.elim
  · obtain ⟨_, _, _, d', _, _, h, _⟩ := W; cases h
  · rename_i hr s' e
    obtain ⟨a, b, c, d', e1, e2⟩ := W
    refine ⟨hr, s', e, app r (.sort (esc := false) hv hf (by rw [e]; rfl) (.nil _)), b, ?_, ?_⟩
    · intro x y hx hy
      rw [hb] at hx; cases hx
      rw [e1] at hy; cases hy
      rcases e2 with ⟨h1, rfl, k⟩ | ⟨_, _, _, _, k, k2⟩ | ⟨_, rfl, _, k⟩
      · refine ⟨k.2, fun _ _ => ?_⟩
        -- nothing happened
        have : sortStep T s i qs false al = .ret .ok s' := e
        obtain ⟨p, hp, hm⟩ := live_of_blk hb
        unfold sortStep onHandle at this
        rw [hp] at this; dsimp only at this
        unfold sort at this; rw [hm] at this; dsimp only at this
        rw [if_pos h1] at this
        simp only [Out.ret.injEq, true_and] at this
        subst this
        unfold blk at e1; dsimp only at e1
        rw [List.getElem?_set_self (lt_of_get hp)] at e1; dsimp only at e1
        rw [hm] at e1; cases e1; rfl
      · exact ⟨k, fun hs _ => k2 hs⟩
      · exact ⟨k.2, fun _ h => by cases h⟩
    · rcases e2 with ⟨h1, rfl, k⟩ | ⟨_, _, rfl, k, _⟩ | ⟨_, rfl, k0, k⟩
      · rw [if_pos rfl]
        have : items s' i = items s i := items_eq e1 (k.1.trans hcnt)
        rw [this]
        refine ⟨.refl _, ?_⟩
        rw [hz] at h1
        match items s i, h1 with
        | [], _ => exact .nil
        | [a], _ => simp
      · rw [if_pos rfl]
        have : items s' i = qs (items s i) := items_eq e1 k
        rw [this]; exact hq hc _
      · rw [if_neg (by decide)]
        exact ⟨k0, items_eq e1 (k.1.trans hcnt)⟩

/-- **C89 is false for a comparison that throws:** in every state and for every array with two or more elements, if memory suffices the exception leaves the array locked once more than before, for ever: the call is over and
nobody will call `UnlockBuffer`. -/
theorem C89_throw_fails {T : Ty α} (t : T.triv = true) {s : St α} (r : SRun T init s) (hf : Few s) {i : Nat} {q : Nat} {qs : List α → List α} (hv : SortValid T s i qs (some q)) (h2 : 1 < (items s i).length) :
    ∃ s' d d', sortStep T s i qs true (some q) = .thr s' ∧ blk s i = some d ∧ blk s' i = some d' ∧ d'.locks = d.locks + 1 ∧ IsLocked s' i := by
  obtain ⟨inv, w⟩ := srun_inv t r (inv_init T) whole_init
  obtain ⟨d, hb, hz, W⟩ := sort_world (esc := true) t inv hf w hv
  unfold WPost at W
  split at W
  · exact W.elim
  · exact W.elim
  · rename_i s' e
    obtain ⟨_, _, _, d', e1, _, _, _, e2⟩ := W
    refine ⟨s', d, d', e, hb, e1, e2, d', e1, ?_⟩
    unfold Blk.locks at e2; unfold Blk.isLocked; omega
  · obtain ⟨_, _, _, d', _, e2⟩ := W
    rcases e2 with ⟨h, _⟩ | ⟨_, h, _⟩ | ⟨_, _, h, _⟩
    · omega
    · cases h
    · cases h

/-- **C89 is undefined for other element types:** `Sort` compiles for `Array<String>`, and `qsort` then moves objects as bytes. -/
theorem C89_object_fails {T : Ty α} (t : T.triv = false) {m : Mem α} {o : Nat → Nat} {p : Nat} {d : Blk α} {q : Nat} {qs : List α → List α} (h : WF T m (plus o p)) (hb : Bd o) (hd : m p = some d)
    (hf : Fresh T m p (some q)) (h2 : 1 < d.size) : sort T m p qs false (some q) = .ub := by
  unfold sort; rw [hd]; dsimp only
  rw [if_neg (by omega), if_neg (by decide)]
  unfold withLock
  rcases acquire_ok (need := 0) (grow := 0) h hb hd hf with ⟨e, ha⟩ | ⟨e, hlk, hg⟩ | ⟨n0, s0, _⟩ | ⟨m1, q', d1, e, A⟩
  · cases ha
  · omega
  · omega
  · rw [e]; dsimp only
    unfold finish; rw [A.get]; dsimp only
    unfold qsortEdit; rw [t]; rfl

/-! ### the hypotheses can be met -/

/-- insertion sort, one `qsort` -/
def ins (cmp : α → α → Int) (a : α) : List α → List α
  | [] => [a]
  | b :: t => if cmp a b ≤ 0 then a :: b :: t else b :: ins cmp a t

def isort (cmp : α → α → Int) : List α → List α
  | [] => []
  | a :: t => ins cmp a (isort cmp t)

theorem ins_perm (cmp : α → α → Int) (a : α) : ∀ l, (ins cmp a l).Perm (a :: l)
  | [] => .refl _
  | b :: t => by
    unfold ins; split
    · exact .refl _
    · exact ((ins_perm cmp a t).cons b).trans (.swap _ _ _)

theorem ins_sorted {cmp : α → α → Int} (hc : TotalPre cmp) (a : α) : ∀ l, l.Pairwise (fun a b => cmp a b ≤ 0) → (ins cmp a l).Pairwise (fun a b => cmp a b ≤ 0)
  | [], _ => by simp [ins]
  | b :: t, h => by
    have h := List.pairwise_cons.1 h
    unfold ins; split
    · rename_i hab
      exact .cons (fun x hx => by
        rcases List.mem_cons.1 hx with rfl | hx
        · exact hab
        · exact hc.trans _ _ _ hab (h.1 x hx)) (.cons h.1 h.2)
    · rename_i hab
      refine .cons (fun x hx => ?_) (ins_sorted hc a t h.2)
      rcases List.mem_cons.1 ((ins_perm cmp a t).subset hx) with rfl | hx
      · exact (hc.flip x b).resolve_left hab
      · exact h.1 x hx

theorem isort_qsort (cmp : α → α → Int) : QSort cmp (isort cmp) := by
  intro hc l
  induction l with
  | nil => exact ⟨.refl _, .nil⟩
  | cons a t ih => exact ⟨(ins_perm cmp a _).trans (ih.1.cons a), ins_sorted hc a _ ih.2⟩

/-- comparison of numbers -/
def cmpNat (a b : Nat) : Int := (a : Int) - b

theorem cmpNat_pre : TotalPre cmpNat := ⟨fun a b => by unfold cmpNat; omega, fun a b c => by unfold cmpNat; omega⟩

theorem srun_of_run {T : Ty α} {s ops s'} (r : Run T s ops s') : SRun T s s' := by
  induction r with
  | nil => exact .nil _
  | cons hv hf hs _ ih => exact .op hv hf hs ih

/-- `[3,1,2]` shared with a copy: sorting the copy gives `[1,2,3]` in new memory, the original stays `[3,1,2]`; sorting it again with a throwing comparison leaves it locked -/
theorem C89_example : ∃ s s', SRun int init s ∧ Few s ∧ Live s 1 ∧ AlOk int s 1 (some 2) ∧ QSort cmpNat (isort cmpNat) ∧ TotalPre cmpNat ∧ sortStep int s 1 (isort cmpNat) false (some 2) = .ret .ok s' ∧
    seen s' 0 = some (vs [3, 1, 2], 16, 1) ∧ seen s' 1 = some (vs [1, 2, 3], 16, 1) ∧
    ((sortStep int s' 1 (isort cmpNat) true none).st.bind fun x => seen x 1) = some (vs [1, 2, 3], 16, -1) := by
  obtain ⟨s, r, h⟩ := witness (T := int) (ops := [.new, .setArr 0 (.ext [3, 1, 2]) (some 1), .copy 0 none])
    (fun s => decide (s.hs = [some 1, some 1] ∧ (s.mem 2).isNone ∧
      ((sortStep int s 1 (isort cmpNat) false (some 2)).st.bind fun x => seen x 0) = some (vs [3, 1, 2], 16, 1) ∧
      ((sortStep int s 1 (isort cmpNat) false (some 2)).st.bind fun x => seen x 1) = some (vs [1, 2, 3], 16, 1) ∧
      ((sortStep int s 1 (isort cmpNat) false (some 2)).st.bind fun x => (sortStep int x 1 (isort cmpNat) true none).st.bind fun x => seen x 1) = some (vs [1, 2, 3], 16, -1))) (by decide +kernel)
  have h := of_decide_eq_true h
  have rs := srun_of_run r
  have hf : Few s := by unfold Few; rw [h.1]; decide
  have hl : Live s 1 := ⟨1, by rw [h.1]; rfl⟩
  have ha : AlOk int s 1 (some 2) := fun q e => by
    cases e; exact ⟨by decide, .inl (by cases hm : s.mem 2 with | none => rfl | some _ => rw [hm] at h; simp at h)⟩
  obtain ⟨hr, s', e, _, _, _, h3⟩ := C89_sort_partial (T := int) rfl rs hf (isort_qsort cmpNat) cmpNat_pre hl ha
  have hok : hr = .ok := by
    by_cases hk : hr = .ok
    · exact hk
    · rw [if_neg hk] at h3; cases h3.1
  subst hok
  have h2 := h.2.2
  rw [e] at h2
  exact ⟨s, s', rs, hf, hl, ha, isort_qsort _, cmpNat_pre, e, h2.1, h2.2.1, h2.2.2⟩

end Verif.Arr
