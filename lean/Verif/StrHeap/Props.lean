import Verif.StrHeap.Step

/-!
Properties of the copy-on-write String storage:
C08 (TransformEndian by move), C09 (independence of handles), C10 (storage lifetime),
C11 (terminator and size), C16 (self append / self assign).
-/

namespace Verif.StrHeap

/-- the state a call leaves behind, whether it returned or threw -/
def Out.st : Out → Option St
  | .ub => none
  | .thr s => some s
  | .ret _ s => some s

/-- all handles outside the list look the same -/
def Same (s s' : St) (ts : List Nat) : Prop :=
  ∀ k, k ∉ ts → k < s.hs.length → s'.hs[k]? = s.hs[k]? ∧ (blk s' k).map look = (blk s k).map look

theorem others_same {s s' : St} {i : Nat} (h : Others s s' i) : Same s s' [i] :=
  fun k hk _ => h.2 k (by simpa using hk)

theorem lt_of_get {l : List (Option Nat)} {i : Nat} {x : Option Nat} (h : l[i]? = some x) : i < l.length := by
  rcases Nat.lt_or_ge i l.length with h' | h'
  · exact h'
  · rw [List.getElem?_eq_none h'] at h; cases h

theorem blk_eq {s : St} {i a : Nat} (h : s.hs[i]? = some (some a)) : blk s i = s.mem a := by
  unfold blk; rw [h]

theorem cnt_push (hs : List (Option Nat)) (x : Nat) : cnt (hs ++ [some x]) = plus (cnt hs) x := by
  funext a
  simp only [cnt, List.count_append, plus, List.count_cons, List.count_nil, Nat.zero_add, beq_iff_eq]
  by_cases h : a = x
  · subst h; simp
  · rw [if_neg h, if_neg (by intro e; cases e; exact h rfl)]

theorem same_push {m m' : Mem} {hs : List (Option Nat)} {x : Nat} (h : ∀ a, 0 < cnt hs a → obs m' a = obs m a) :
    Same ⟨m, hs⟩ ⟨m', hs ++ [some x]⟩ [] := by
  intro k _ hk
  have e : (hs ++ [some x])[k]? = hs[k]? := List.getElem?_append_left hk
  refine ⟨e, ?_⟩
  unfold blk; dsimp only; rw [e]
  cases h1 : hs[k]? with
  | none => rfl
  | some y =>
    cases y with
    | none => rfl
    | some a => exact look_obs (h a (cnt_pos h1))

theorem same_mem {m m' : Mem} {hs hs' : List (Option Nat)} {ts : List Nat} (hh : ∀ k, k ∉ ts → k < hs.length → hs'[k]? = hs[k]?)
    (h : ∀ k a, k ∉ ts → hs[k]? = some (some a) → obs m' a = obs m a) : Same ⟨m, hs⟩ ⟨m', hs'⟩ ts := by
  intro k hk hl
  refine ⟨hh k hk hl, ?_⟩
  unfold blk; dsimp only; rw [hh k hk hl]
  cases h1 : hs[k]? with
  | none => rfl
  | some y =>
    cases y with
    | none => rfl
    | some a => exact look_obs (h k a hk h1)

theorem few_bd1 {s : St} (hf : Few s) : Bd (cnt s.hs) := by
  intro a _
  have := cnt_le s.hs a
  unfold Few at hf; omega

/-- a failed deep copy into a String under construction leaves the heap as it was -/
theorem setStr_static_none {cls m c src m' p'} (w : WF cls m c) (h : setStr cls m 0 src none = .ret .oom m' p') : m' = m := by
  have r : release m 0 = some m := by
    unfold release; rw [w.zero]; simp [SD.isReadOnly, emptySD]
  have e : clear m 0 = .ret .ok m 0 := by
    unfold clear; rw [w.zero]; dsimp only
    rw [if_pos (by simp [SD.isShared, emptySD, imax]), r]
  unfold setStr at h
  rw [e] at h; dsimp only at h
  by_cases hz : src.len = 0
  · rw [if_pos hz] at h; cases h
  · rw [if_neg hz] at h
    have e2 : lockBuffer cls m 0 src.len none = .ret .oom m 0 := by
      unfold lockBuffer; rw [w.zero]; dsimp only
      have : (if src.len < (emptySD cls).size then (emptySD cls).size else src.len) = src.len := if_neg (by simp [emptySD])
      rw [this, if_neg (fun hh => hz hh.1), if_pos (by simp [SD.isShared, emptySD, imax])]
      have : cloneData cls m (emptySD cls) src.len none = none := by
        unfold cloneData; dsimp only; rw [this, if_neg hz]; unfold allocData; rw [if_neg hz]
      rw [this]
    rw [e2] at h; cases h; rfl

/-- Safety of one step: a valid operation is never undefined, keeps the ownership invariant and leaves
every handle it is not called on untouched. -/
theorem step_safe {cls s op} (inv : Inv cls s) (few : Few s) (hv : Valid s op) :
    ∃ s', (step cls s op).st = some s' ∧ Inv cls s' ∧ Same s s' op.targets := by
  have member : ∀ i, op.self? = some i → op.targets = [i] → Live s i →
      ∃ s', (step cls s op).st = some s' ∧ Inv cls s' ∧ Same s s' op.targets := by
    intro i hi ht hl
    obtain ⟨p, d, hp, hm, hb, w⟩ := handle_facts inv hl
    have := member_step inv few hv hi hb
    unfold WPost at this
    rw [ht]
    split at this
    · exact this.elim
    · rename_i s' he; exact ⟨s', by rw [he]; rfl, this.1, others_same this.2.1⟩
    · rename_i s' he; exact ⟨s', by rw [he]; rfl, this.1, others_same this.2.1⟩
  cases op with
  | new =>
    refine ⟨_, rfl, ?_, same_push fun _ _ => rfl⟩
    unfold Inv; dsimp only; rw [cnt_push]; exact wf_plus0 inv
  | copy j al =>
    obtain ⟨⟨a, hj⟩, hal⟩ := hv
    obtain ⟨e, he⟩ := inv.live (cnt_pos hj)
    simp only [step, hj, he]
    by_cases hl : e.isLocked
    · rw [if_pos hl]
      have hes := inv.size_le he
      have w0 : WF cls s.mem (plus (cnt s.hs) 0) := wf_plus0 inv
      have A := setStr_ok (src := .inn a 0 e.size) (al := al) w0 (few_bd1 few) inv.zero
        (fun q x h => ⟨(hal q x h).1, .inl (hal q x h).2⟩) (.inr ⟨cnt_pos hj, e, he, by omega⟩)
      unfold Post at A
      split at A
      · exact A.elim
      · obtain ⟨_, _, _, hh, _⟩ := A; simp [SD.isLocked, emptySD, imax] at hh
      · rename_i hr m p heq
        obtain ⟨L, d', g, _, _, _, hh⟩ := A
        rw [heq]
        rcases hh with ⟨rfl, _⟩ | ⟨rfl, ha, _⟩
        · refine ⟨_, rfl, ?_, same_push fun x hx => L.frame x hx⟩
          unfold Inv; dsimp only; rw [cnt_push]; exact L.wf
        · subst ha
          have := setStr_static_none (src := .inn a 0 e.size) inv heq
          rw [this]
          exact ⟨_, rfl, inv, fun k _ _ => ⟨rfl, rfl⟩⟩
    · rw [if_neg hl]
      obtain ⟨m1, e1, w1, ob1, _⟩ := addRef_ok inv (few_bd1 few) (cnt_pos hj) he hl
      rw [e1]
      refine ⟨_, rfl, ?_, same_push fun x _ => ob1 x⟩
      unfold Inv; dsimp only; rw [cnt_push]; exact w1
  | move j =>
    obtain ⟨a, hj⟩ := hv
    simp only [step, hj]
    refine ⟨_, rfl, ?_, same_mem ?_ ?_⟩
    · unfold Inv; dsimp only; rw [cnt_push, cnt_put 0 hj, plus_comm, ← cnt_split hj]; exact wf_plus0 inv
    · intro k hk hl
      rw [List.getElem?_append_left (by simpa using hl), List.getElem?_set_ne]
      simp [Op.targets] at hk; exact Ne.symm hk
    · intro k x _ _; rfl
  | del i =>
    obtain ⟨p, d, hp, hm, hb, w⟩ := handle_facts inv hv
    obtain ⟨m', e, w', fr, _⟩ := release_ok w (few_bd0 few i)
    simp only [step, hp, e]
    refine ⟨_, rfl, w', same_mem ?_ ?_⟩
    · intro k hk hl
      rw [List.getElem?_set_ne]; simp [Op.targets] at hk; exact Ne.symm hk
    · intro k x hk hx
      exact fr x (oth_pos (by simpa [Op.targets] using hk) hx)
  | moveAssign i j =>
    obtain ⟨⟨p, hp⟩, ⟨a, hj⟩⟩ := hv
    simp only [step, hp, hj]
    by_cases hpa : p = a
    · rw [if_pos hpa]; exact ⟨s, rfl, inv, fun k _ _ => ⟨rfl, rfl⟩⟩
    · rw [if_neg hpa]
      obtain ⟨e, he⟩ := inv.live (cnt_pos hj)
      rw [he]; dsimp only
      by_cases hl : e.isLocked
      · rw [if_pos hl]; exact ⟨s, rfl, inv, fun k _ _ => ⟨rfl, rfl⟩⟩
      · rw [if_neg hl]
        have hij : i ≠ j := by intro e; subst e; rw [hp] at hj; cases hj; exact hpa rfl
        have hp2 : (s.hs.set j (some 0))[i]? = some (some p) := by rw [List.getElem?_set_ne (Ne.symm hij)]; exact hp
        obtain ⟨p', d, hp', hm, hb, w⟩ := handle_facts inv ⟨p, hp⟩
        rw [hp] at hp'; cases hp'
        obtain ⟨m', e', w', fr, _⟩ := release_ok w (few_bd0 few i)
        rw [e']
        refine ⟨_, rfl, ?_, same_mem ?_ ?_⟩
        · unfold Inv; dsimp only
          rw [cnt_put a hp2, List.set_comm _ _ (Ne.symm hij)]
          have hj2 : (s.hs.set i none)[j]? = some (some a) := by rw [List.getElem?_set_ne hij]; exact hj
          rw [cnt_put 0 hj2, plus_comm, ← cnt_split hj2]
          exact wf_plus0 w'
        · intro k hk hl
          simp [Op.targets] at hk
          rw [List.getElem?_set_ne (Ne.symm hk.1), List.getElem?_set_ne (Ne.symm hk.2)]
        · intro k x hk hx
          simp [Op.targets] at hk
          exact fr x (oth_pos hk.1 hx)
  | clear i => exact member i rfl rfl hv
  | setStr i _ _ => exact member i rfl rfl hv.1
  | setNull i => exact member i rfl rfl hv
  | assign i _ _ => exact member i rfl rfl hv.1
  | append i _ _ => exact member i rfl rfl hv.1
  | appendS i _ _ => exact member i rfl rfl hv.1
  | appendChar i _ _ => exact member i rfl rfl hv.1
  | setItem i _ _ _ => exact member i rfl rfl hv.1
  | setEnc i _ _ => exact member i rfl rfl hv.1
  | remove i _ _ _ => exact member i rfl rfl hv.1
  | lock i _ _ => exact member i rfl rfl hv.1
  | write i _ _ =>
    refine member i rfl rfl ?_
    obtain ⟨d, hd, _⟩ := hv
    unfold blk at hd
    split at hd
    · rename_i a ha; exact ⟨a, ha⟩
    · cases hd
  | unlockN i _ => exact member i rfl rfl hv
  | unlock i => exact member i rfl rfl hv


/-! ### histories -/

/-- `Run cls s ops s'`: a history of valid operations from `s` to `s'`; operations that throw or return an
error code are part of it -/
inductive Run (cls : Nat) : St → List Op → St → Prop
  | nil (s) : Run cls s [] s
  | cons {s s' s'' op ops} : Valid s op → Few s → (step cls s op).st = some s' → Run cls s' ops s'' → Run cls s (op :: ops) s''

theorem inv_init (cls : Nat) : Inv cls (init cls) := by
  refine ⟨rfl, ?_, ?_⟩
  · intro a d ha hm; simp [init, ha] at hm
  · intro a ha _; simp [init, cnt]

theorem run_inv {cls s ops s'} (r : Run cls s ops s') (inv : Inv cls s) : Inv cls s' := by
  induction r with
  | nil => exact inv
  | cons hv hf hs _ ih =>
    obtain ⟨x, e, i, _⟩ := step_safe inv hf hv
    rw [hs] at e; cases e
    exact ih i

/-! ### C10: storage lifetime -/

/-- **C10 (partial).**  In every history of valid String operations no operation ever touches freed storage or frees
twice (`ub` is never reached); every live handle refers to a live block; a heap block is live exactly while
some handle refers to it, so it is freed exactly when its last handle lets go; and its reference count is
the number of handles (a locked block has exactly one).

Missing for the full claim: the calls that `Valid` and `Few` exclude, where it is false or not modelled:
`Remove` of a shared string when memory runs out (`C10_remove_oom_fails`), sources inside the modified
unshared string (`C16_append_fails`), conversion by move into an empty string (`C08_move_fails`), and
2^31-5 or more handles. -/
theorem C10_lifetime_partial {cls ops s} (r : Run cls (init cls) ops s) :
    (∀ op, Valid s op → Few s → step cls s op ≠ .ub) ∧
    (∀ (i a : Nat), s.hs[i]? = some (some a) → ∃ d, s.mem a = some d) ∧
    (∀ a, a ≠ 0 → ((∃ d, s.mem a = some d) ↔ ∃ i : Nat, s.hs[i]? = some (some a))) ∧
    (∀ a d, a ≠ 0 → s.mem a = some d →
      (0 < d.iRef ∧ d.iRef = (s.hs.count (some a) : Int)) ∨ (d.iRef < 0 ∧ s.hs.count (some a) = 1)) := by
  have inv := run_inv r (inv_init cls)
  refine ⟨?_, ?_, ?_, ?_⟩
  · intro op hv hf e
    obtain ⟨s', e', _⟩ := step_safe inv hf hv
    rw [e] at e'; cases e'
  · intro i a h; exact inv.live (cnt_pos h)
  · intro a ha
    constructor
    · rintro ⟨d, hd⟩; exact cnt_pos_iff.1 (inv.blk a d ha hd).2.1
    · rintro ⟨i, h⟩; exact inv.live (cnt_pos h)
  · intro a d ha hd
    have := inv.blk a d ha hd
    unfold cnt at this
    omega

/-- after every String of the program is destroyed, no heap block is left -/
theorem C10_no_leak_partial {cls ops s} (r : Run cls (init cls) ops s) (h : ∀ (i : Nat) x, s.hs[i]? = some x → x = none) :
    ∀ a, a ≠ 0 → s.mem a = none := by
  intro a ha
  cases e : s.mem a with
  | none => rfl
  | some d =>
    obtain ⟨i, hi⟩ := ((C10_lifetime_partial r).2.2.1 a ha).1 ⟨d, e⟩
    have := h i _ hi
    cases this

/-! ### C09: independence -/

/-- **C09, first half.**  Whatever valid operation is performed, every handle it was not called on keeps its
text, encoding, capacity, terminator and lock count. -/
theorem C09_others {cls ops s op s'} (r : Run cls (init cls) ops s) (hv : Valid s op) (hf : Few s)
    (hs : (step cls s op).st = some s') :
    ∀ k, k ∉ op.targets → k < s.hs.length → (blk s' k).map look = (blk s k).map look := by
  obtain ⟨x, e, _, h⟩ := step_safe (run_inv r (inv_init cls)) hf hv
  rw [hs] at e; cases e
  exact fun k hk hl => (h k hk hl).2

theorem Run.append {cls s ops s'} (r : Run cls s ops s') : ∀ {ops' s''}, Run cls s' ops' s'' → Run cls s (ops ++ ops') s'' := by
  induction r with
  | nil => intro _ _ h; exact h
  | cons hv hf hs _ ih => intro _ _ h; exact .cons hv hf hs (ih h)

/-- a whole sequence of operations on other handles leaves a handle alone -/
theorem C09_others_run {cls ops s} (r : Run cls (init cls) ops s) {ops' s' k} (r' : Run cls s ops' s')
    (hk : ∀ op ∈ ops', k ∉ op.targets) (hl : k < s.hs.length) : (blk s' k).map look = (blk s k).map look := by
  induction r' generalizing ops with
  | nil => rfl
  | @cons s s1 s2 op rest hv hf hs r2 ih =>
    have r1 : Run cls (init cls) (ops ++ [op]) s1 := r.append (.cons hv hf hs (.nil _))
    obtain ⟨x, e, _, h⟩ := step_safe (run_inv r (inv_init cls)) hf hv
    rw [hs] at e; cases e
    have hk0 := hk op (by simp)
    have hl1 : k < s1.hs.length := by
      have := (h k hk0 hl).1
      rw [List.getElem?_eq_getElem hl] at this
      exact lt_of_get this
    rw [ih r1 (fun op ho => hk op (by simp [ho])) hl1, (h k hk0 hl).2]

/-- **C09, second half (partial).**  A member function changes the handle it is called on exactly as it
would change an unshared string (`Effect` mentions only the text), whatever the sharing state, unless it is
`SetItem`, `SetANSIEncoding` or the user's `LockBuffer` on a non-empty shared string
(`C09_setItem_fails`, `C09_setEnc_fails`, `C09_lock_fails`). -/
theorem C09_as_unshared_partial {cls ops s op i d s'} (r : Run cls (init cls) ops s) (hv : Valid s op) (hf : Few s)
    (hi : op.self? = some i) (hd : blk s i = some d) (hne : ¬ Exposed s d op) (hs : (step cls s op).st = some s') :
    ∃ d', blk s' i = some d' ∧
      Effect d d' (op.src s) (match step cls s op with | .ret hr _ => some hr | _ => none) op := by
  have A := member_step (run_inv r (inv_init cls)) hf hv hi hd
  unfold WPost at A
  split at A
  · exact A.elim
  · rename_i s1 e
    rw [e] at hs; cases hs
    obtain ⟨_, _, d', g, h, _⟩ := A
    exact ⟨d', g, by rw [e]; exact h hne⟩
  · rename_i hr s1 e
    rw [e] at hs; cases hs
    obtain ⟨_, _, d', g, h, _⟩ := A
    exact ⟨d', g, by rw [e]; exact h hne⟩

/-- a copy has the text of the original -/
theorem C09_copy {cls ops s j al e s'} (r : Run cls (init cls) ops s) (hv : Valid s (.copy j al)) (hf : Few s)
    (he : blk s j = some e) (hs : step cls s (.copy j al) = .ret .ok s') :
    ∃ d', blk s' s.hs.length = some d' ∧ d'.text = e.text := by
  have inv := run_inv r (inv_init cls)
  obtain ⟨⟨a, hj⟩, hal⟩ := hv
  rw [blk_eq hj] at he
  simp only [step, hj, he] at hs
  by_cases hl : e.isLocked
  · rw [if_pos hl] at hs
    have hes := inv.size_le he
    have w0 : WF cls s.mem (plus (cnt s.hs) 0) := wf_plus0 inv
    have A := setStr_ok (src := .inn a 0 e.size) (al := al) w0 (few_bd1 hf) inv.zero
      (fun q x h => ⟨(hal q x h).1, .inl (hal q x h).2⟩) (.inr ⟨cnt_pos hj, e, he, by omega⟩)
    unfold Post at A
    split at A
    · exact A.elim
    · obtain ⟨_, _, _, hh, _⟩ := A; simp [SD.isLocked, emptySD, imax] at hh
    · rename_i hr m p heq
      obtain ⟨L, d', g, _, _, _, hh⟩ := A
      rw [heq] at hs
      rcases hh with ⟨rfl, ht⟩ | ⟨rfl, ha, _⟩
      · cases hs
        refine ⟨d', ?_, ?_⟩
        · unfold blk; dsimp only; rw [List.getElem?_append_right (Nat.le_refl _), Nat.sub_self]; exact g
        · rw [ht]
          unfold Ptr.chars SD.text; simp only [Ptr.len]
          apply List.map_congr_left; intro k _; simp only [Ptr.ch]; rw [he]; dsimp only; rw [Nat.zero_add]
      · cases hs
  · rw [if_neg hl] at hs
    obtain ⟨m1, e1, w1, ob1, _⟩ := addRef_ok inv (few_bd1 hf) (cnt_pos hj) he hl
    rw [e1] at hs; cases hs
    obtain ⟨e', h1, h2, h3, h4, _⟩ := obs_some (ob1 a) he
    refine ⟨e', ?_, by unfold SD.text; rw [h3, h4]⟩
    unfold blk; dsimp only; rw [List.getElem?_append_right (Nat.le_refl _), Nat.sub_self]; exact h1

/-- moving hands the text over and leaves the source empty -/
theorem C09_move {cls s j e s'} (hz : s.mem 0 = some (emptySD cls)) (he : blk s j = some e) (hs : step cls s (.move j) = .ret .ok s') :
    blk s' s.hs.length = some e ∧ (blk s' j).map SD.text = some [] := by
  have hj : ∃ a, s.hs[j]? = some (some a) := by
    unfold blk at he
    split at he
    · rename_i a ha; exact ⟨a, ha⟩
    · cases he
  obtain ⟨a, hj⟩ := hj
  rw [blk_eq hj] at he
  simp only [step, hj] at hs
  cases hs
  have hl := lt_of_get hj
  constructor
  · unfold blk; dsimp only; rw [List.getElem?_append_right (by simp), List.length_set, Nat.sub_self]; exact he
  · unfold blk; dsimp only; rw [List.getElem?_append_left (by simpa using hl), List.getElem?_set_self hl]; dsimp only
    rw [hz]; rfl

/-- move assignment hands the text over -/
theorem C09_moveAssign {cls ops s i j d e s'} (r : Run cls (init cls) ops s) (hf : Few s) (hd : blk s i = some d)
    (he : blk s j = some e) (hs : step cls s (.moveAssign i j) = .ret .ok s') :
    (blk s' i).map SD.text = some e.text := by
  have inv := run_inv r (inv_init cls)
  have live : ∀ {k x}, blk s k = some x → ∃ a, s.hs[k]? = some (some a) := by
    intro k x h
    unfold blk at h
    split at h
    · rename_i a ha; exact ⟨a, ha⟩
    · cases h
  obtain ⟨p, hp⟩ := live hd
  obtain ⟨a, hj⟩ := live he
  have hd' := hd
  have he' := he
  rw [blk_eq hp] at hd'
  rw [blk_eq hj] at he'
  simp only [step, hp, hj] at hs
  by_cases hpa : p = a
  · rw [if_pos hpa] at hs; cases hs
    subst hpa; rw [he'] at hd'; cases hd'
    rw [hd]; rfl
  · rw [if_neg hpa, he'] at hs; dsimp only at hs
    by_cases hl : e.isLocked
    · rw [if_pos hl] at hs; cases hs
    · rw [if_neg hl] at hs
      have w : WF cls s.mem (plus (cnt (s.hs.set i none)) p) := by rw [← cnt_split hp]; exact inv
      obtain ⟨m', e1, w', fr, ne, _⟩ := release_ok w (few_bd0 hf i)
      rw [e1] at hs; cases hs
      have hl := lt_of_get hp
      unfold blk; dsimp only
      rw [List.getElem?_set_self (by simpa using hl)]; dsimp only
      rw [ne a (Ne.symm hpa), he']; rfl

/-! ### C11: size and terminator -/

/-- every unlocked String ends with a terminator -/
def Term (s : St) : Prop := ∀ k e, blk s k = some e → Tm e

theorem live_of_blk {s : St} {k : Nat} {x : SD} (h : blk s k = some x) : ∃ a, s.hs[k]? = some (some a) := by
  unfold blk at h
  split at h
  · rename_i a ha; exact ⟨a, ha⟩
  · cases h

theorem tm_look {d d' : SD} (h : look d' = look d) (ht : Tm d) (hd : d.iRef ≠ 0) : Tm d' := by
  unfold look at h
  simp only [Prod.mk.injEq] at h
  obtain ⟨_, _, _, h4, h5⟩ := h
  intro hp
  rw [h4]
  refine ht ?_
  rw [if_neg (by omega)] at h5
  split at h5 <;> omega

theorem ref_ne_zero {cls m c a d} (w : WF cls m c) (hd : m a = some d) : d.iRef ≠ 0 := by
  by_cases ha : a = 0
  · subst ha; have := w.zero_eq hd; subst this; simp [emptySD, imax]
  · have := w.blk a d ha hd; omega

theorem term_same {cls s s' ts} (inv : Inv cls s) (ht : Term s) (h : Same s s' ts) {k e} (hk : k ∉ ts) (hl : k < s.hs.length)
    (he : blk s' k = some e) : Tm e := by
  have h2 := (h k hk hl).2
  rw [he] at h2
  cases hb : blk s k with
  | none => rw [hb] at h2; simp at h2
  | some d =>
    rw [hb] at h2; simp at h2
    obtain ⟨a, ha⟩ := live_of_blk hb
    have hm := hb
    rw [blk_eq ha] at hm
    exact tm_look h2 (ht k d hb) (ref_ne_zero inv hm)

theorem tm_static (cls : Nat) : Tm (emptySD cls) := fun _ => rfl

/-- one step keeps the terminators, except in the exposed cases -/
theorem step_term {cls s op s'} (inv : Inv cls s) (few : Few s) (hv : Valid s op) (ht : Term s)
    (hne : ∀ i d, op.self? = some i → blk s i = some d → ¬ Exposed s d op ∧ Tidy d op)
    (hs : (step cls s op).st = some s') : Term s' := by
  obtain ⟨x, ex, inv', same⟩ := step_safe inv few hv
  rw [hs] at ex; cases ex
  have member : ∀ i, op.self? = some i → op.targets = [i] → Live s i → Term s' := by
    intro i hi htg hl k e he
    obtain ⟨_, d, _, _, hb, _⟩ := handle_facts inv hl
    have A := member_step inv few hv hi hb
    obtain ⟨h1, h2⟩ := hne i d hi hb
    have B : s'.hs.length = s.hs.length ∧ ∃ d', blk s' i = some d' ∧ Tm d' := by
      unfold WPost at A
      split at A
      · exact A.elim
      · rename_i s1 e1
        rw [e1] at hs; cases hs
        obtain ⟨_, o, d', g, _, h⟩ := A
        exact ⟨o.1, d', g, h ht⟩
      · rename_i hr s1 e1
        rw [e1] at hs; cases hs
        obtain ⟨_, o, d', g, _, h⟩ := A
        exact ⟨o.1, d', g, h ht h1 h2⟩
    obtain ⟨hlen, d', g, h⟩ := B
    by_cases hk : k = i
    · subst hk; rw [he] at g; cases g; exact h
    · obtain ⟨a, ha⟩ := live_of_blk he
      exact term_same inv ht same (by rw [htg]; simpa using hk) (by have := lt_of_get ha; omega) he
  have push : ∀ {m hs' x d}, s' = ⟨m, hs' ++ [some x]⟩ → hs'.length = s.hs.length → m x = some d → Tm d →
      (∀ k e, k ∈ op.targets → blk s' k = some e → Tm e) → Term s' := by
    intro m hs' x d e hl hm hT htg k e' he
    by_cases hk : k ∈ op.targets
    · exact htg k e' hk he
    · by_cases hkl : k < s.hs.length
      · exact term_same inv ht same hk hkl he
      · subst e
        have hk2 : k = hs'.length := by
          obtain ⟨a, ha⟩ := live_of_blk he
          have := lt_of_get ha
          simp at this; omega
        subst hk2
        unfold blk at he; dsimp only at he
        rw [List.getElem?_append_right (Nat.le_refl _), Nat.sub_self] at he
        simp only [List.getElem?_cons_zero] at he
        rw [hm] at he; cases he; exact hT
  cases op with
  | new =>
    simp only [step, Out.st] at hs; cases hs
    exact push rfl rfl inv.zero (tm_static cls) (fun k e hk => by simp [Op.targets] at hk)
  | copy j al =>
    obtain ⟨⟨a, hj⟩, hal⟩ := hv
    obtain ⟨e, he⟩ := inv.live (cnt_pos hj)
    have hbj : blk s j = some e := by rw [blk_eq hj]; exact he
    simp only [step, hj, he] at hs
    by_cases hl : e.isLocked
    · rw [if_pos hl] at hs
      have hes := inv.size_le he
      have w0 : WF cls s.mem (plus (cnt s.hs) 0) := wf_plus0 inv
      have A := setStr_ok (src := .inn a 0 e.size) (al := al) w0 (few_bd1 few) inv.zero
        (fun q x h => ⟨(hal q x h).1, .inl (hal q x h).2⟩) (.inr ⟨cnt_pos hj, e, he, by omega⟩)
      unfold Post at A
      split at A
      · exact A.elim
      · obtain ⟨_, _, _, hh, _⟩ := A; simp [SD.isLocked, emptySD, imax] at hh
      · rename_i hr m p heq
        obtain ⟨L, d', g, z, _, _, hh⟩ := A
        rw [heq] at hs
        rcases hh with ⟨rfl, _⟩ | ⟨rfl, ha, _⟩
        · simp only [Out.st] at hs; cases hs
          exact push rfl rfl g (fun _ => z) (fun k e hk => by simp [Op.targets] at hk)
        · subst ha
          have := setStr_static_none (src := .inn a 0 e.size) inv heq
          rw [this] at hs
          simp only [Out.st] at hs; cases hs
          exact ht
    · rw [if_neg hl] at hs
      obtain ⟨m1, e1, w1, ob1, _⟩ := addRef_ok inv (few_bd1 few) (cnt_pos hj) he hl
      rw [e1] at hs
      simp only [Out.st] at hs; cases hs
      obtain ⟨e', h1, _, h3, h4, _⟩ := obs_some (ob1 a) he
      refine push rfl rfl h1 (fun _ => ?_) (fun k e hk => by simp [Op.targets] at hk)
      rw [h3, h4]
      refine ht j e hbj ?_
      have := ref_ne_zero inv he
      unfold SD.isLocked at hl; omega
  | move j =>
    obtain ⟨a, hj⟩ := hv
    obtain ⟨e, he⟩ := inv.live (cnt_pos hj)
    have hbj : blk s j = some e := by rw [blk_eq hj]; exact he
    simp only [step, hj, Out.st] at hs; cases hs
    have hl := lt_of_get hj
    refine push rfl (by simp) he (ht j e hbj) ?_
    intro k x hk hx
    simp [Op.targets] at hk; subst hk
    unfold blk at hx; dsimp only at hx
    rw [List.getElem?_append_left (by simpa using hl), List.getElem?_set_self hl] at hx; dsimp only at hx
    rw [inv.zero] at hx; cases hx; exact tm_static cls
  | del i =>
    obtain ⟨p, d, hp, hm, hb, w⟩ := handle_facts inv hv
    obtain ⟨m', e, w', fr, _⟩ := release_ok w (few_bd0 few i)
    simp only [step, hp, e, Out.st] at hs; cases hs
    intro k x hx
    by_cases hk : k = i
    · subst hk
      obtain ⟨a, ha⟩ := live_of_blk hx
      dsimp only at ha
      rw [List.getElem?_set_self (lt_of_get hp)] at ha; cases ha
    · obtain ⟨a, ha⟩ := live_of_blk hx
      exact term_same inv ht same (by simpa [Op.targets] using hk) (by have := lt_of_get ha; simpa using this) hx
  | moveAssign i j =>
    obtain ⟨⟨p, hp⟩, ⟨a, hj⟩⟩ := hv
    simp only [step, hp, hj] at hs
    by_cases hpa : p = a
    · rw [if_pos hpa] at hs; simp only [Out.st] at hs; cases hs; exact ht
    · rw [if_neg hpa] at hs
      obtain ⟨e, he⟩ := inv.live (cnt_pos hj)
      have hbj : blk s j = some e := by rw [blk_eq hj]; exact he
      rw [he] at hs; dsimp only at hs
      by_cases hl : e.isLocked
      · rw [if_pos hl] at hs; simp only [Out.st] at hs; cases hs; exact ht
      · rw [if_neg hl] at hs
        have hij : i ≠ j := by intro e; subst e; rw [hp] at hj; cases hj; exact hpa rfl
        have w : WF cls s.mem (plus (cnt (s.hs.set i none)) p) := by rw [← cnt_split hp]; exact inv
        obtain ⟨m', e', w', fr, ne, _⟩ := release_ok w (few_bd0 few i)
        rw [e'] at hs; simp only [Out.st] at hs; cases hs
        intro k x hx
        by_cases hk : k = i
        · subst hk
          unfold blk at hx; dsimp only at hx
          rw [List.getElem?_set_self (by simpa using lt_of_get hp)] at hx; dsimp only at hx
          rw [ne a (Ne.symm hpa), he] at hx; cases hx; exact ht j _ hbj
        · by_cases hk2 : k = j
          · subst hk2
            unfold blk at hx; dsimp only at hx
            rw [List.getElem?_set_ne hij, List.getElem?_set_self (lt_of_get hj)] at hx; dsimp only at hx
            rw [w'.zero] at hx; cases hx; exact tm_static cls
          · obtain ⟨a, ha⟩ := live_of_blk hx
            exact term_same inv ht same (by simpa [Op.targets] using ⟨hk, hk2⟩) (by have := lt_of_get ha; simpa using this) hx
  | clear i => exact member i rfl rfl hv
  | setStr i _ _ => exact member i rfl rfl hv.1
  | setNull i => exact member i rfl rfl hv
  | assign i _ _ => exact member i rfl rfl hv.1
  | append i _ _ => exact member i rfl rfl hv.1
  | appendS i _ _ => exact member i rfl rfl hv.1
  | appendChar i _ _ => exact member i rfl rfl hv.1
  | setItem i _ _ _ => exact member i rfl rfl hv.1
  | setEnc i _ _ => exact member i rfl rfl hv.1
  | remove i _ _ _ => exact member i rfl rfl hv.1
  | lock i _ _ => exact member i rfl rfl hv.1
  | write i _ _ =>
    obtain ⟨d, hd, _⟩ := hv
    exact member i rfl rfl (live_of_blk hd)
  | unlockN i _ => exact member i rfl rfl hv
  | unlock i => exact member i rfl rfl hv

/-- a history without the exposed cases -/
inductive CleanRun (cls : Nat) : St → List Op → St → Prop
  | nil (s) : CleanRun cls s [] s
  | cons {s s' s'' op ops} : Valid s op → Few s →
      (∀ i d, op.self? = some i → blk s i = some d → ¬ Exposed s d op ∧ Tidy d op) →
      (step cls s op).st = some s' → CleanRun cls s' ops s'' → CleanRun cls s (op :: ops) s''

/-- **C11, size.**  After every history of valid operations the size of every String is at most its capacity. -/
theorem C11_size {cls ops s i d} (r : Run cls (init cls) ops s) (h : blk s i = some d) : d.text.length ≤ d.cap := by
  obtain ⟨a, ha⟩ := live_of_blk h
  rw [blk_eq ha] at h
  rw [text_length]
  exact (run_inv r (inv_init cls)).size_le h

/-- **C11, terminator (partial).**  In every history in which `SetItem`, `SetANSIEncoding` and the user's
`LockBuffer` are not applied to non-empty shared strings (and the user restores the terminator before an
`UnlockBuffer()` without size), every unlocked String has the terminator after its last character.
`C11_setItem_fails` shows why the exclusion is needed. -/
theorem C11_terminated_partial {cls ops s} (r : CleanRun cls (init cls) ops s) :
    ∀ i d, blk s i = some d → 0 < d.iRef → d.buf d.text.length = 0 := by
  have key : ∀ {s0 ops s}, CleanRun cls s0 ops s → Inv cls s0 → Term s0 → Term s := by
    intro s0 ops s r
    induction r with
    | nil => exact fun _ h => h
    | cons hv hf hne hs _ ih =>
      intro inv ht
      obtain ⟨x, e, i, _⟩ := step_safe inv hf hv
      rw [hs] at e; cases e
      exact ih i (step_term inv hf hv ht hne hs)
  intro i d h hp
  rw [text_length]
  refine key r (inv_init cls) ?_ i d h hp
  intro k e hk
  obtain ⟨a, ha⟩ := live_of_blk hk
  simp [init] at ha

end Verif.StrHeap
