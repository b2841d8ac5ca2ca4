import Verif.StrHeap.Ops

/-! From one handle to the whole program: preconditions, what users see, and what one step does. -/

namespace Verif.StrHeap

/-! ### Vocabulary of the properties -/

/-- the block handle `i` refers to -/
def blk (s : St) (i : Nat) : Option SD :=
  match s.hs[i]? with
  | some (some a) => s.mem a
  | _ => none

/-- what a user can see of a String: its text, encoding, capacity, the character after the last one and the
number of locks -/
def look (d : SD) : List Nat × Nat × Nat × Nat × Int :=
  (d.text, d.enc, d.cap, d.buf d.size, if d.iRef < 0 then -d.iRef else 0)

/-- handle `i` is a live String object -/
def Live (s : St) (i : Nat) : Prop := ∃ a, s.hs[i]? = some (some a)

/-- another live handle shares the block of handle `i` -/
def SharedWith (s : St) (i : Nat) : Prop := ∃ k, k ≠ i ∧ ∃ a, s.hs[i]? = some (some a) ∧ s.hs[k]? = some (some a)

/-- the allocator answers with an unused address; `realloc` of handle `i`'s own unshared block may answer
with the address it already has -/
def AlOk (s : St) (i : Nat) (al : Al) : Prop :=
  ∀ q j, al = some (q, j) → q ≠ 0 ∧ (s.mem q = none ∨ (s.hs[i]? = some (some q) ∧ ¬ SharedWith s i))

/-- the text a source argument designates -/
def srcText (s : St) : Src → List Nat
  | .ext l => l
  | .of h off n =>
    match blk s h with
    | some d => (d.text.drop off).take n
    | none => []

/-- a source argument for handle `i`: external memory or part of a live String's text, and not part of
the text of `i` itself unless another handle shares the block -/
def SrcValid (s : St) (i : Nat) : Src → Prop
  | .ext _ => True
  | .of h off n => (∃ d, blk s h = some d ∧ off + n ≤ d.size) ∧ (n = 0 ∨ h ≠ i ∨ SharedWith s i)

/-- preconditions of the operations: live handles, a sane allocator, sources that are not part of the
modified string (see C16 for those), memory available for `Remove` of a shared string (its `LockBuffer`
result is not checked), and stores only through a locked buffer within its capacity -/
def Valid (s : St) : Op → Prop
  | .new => True
  | .copy j al => Live s j ∧ ∀ q x, al = some (q, x) → q ≠ 0 ∧ s.mem q = none
  | .move j => Live s j
  | .del i => Live s i
  | .clear i => Live s i
  | .setStr i src al => Live s i ∧ AlOk s i al ∧ SrcValid s i src
  | .setNull i => Live s i
  | .assign i j al => Live s i ∧ Live s j ∧ AlOk s i al
  | .moveAssign i j => Live s i ∧ Live s j
  | .append i src al => Live s i ∧ AlOk s i al ∧ SrcValid s i src
  | .appendS i j al => Live s i ∧ Live s j ∧ AlOk s i al ∧ (i = j → SharedWith s i)
  | .appendChar i _ al => Live s i ∧ AlOk s i al
  | .setItem i _ _ al => Live s i ∧ AlOk s i al
  | .setEnc i _ al => Live s i ∧ AlOk s i al
  | .remove i _ _ al => Live s i ∧ AlOk s i al ∧ (SharedWith s i → al ≠ none)
  | .lock i _ al => Live s i ∧ AlOk s i al
  | .write i k _ => ∃ d, blk s i = some d ∧ d.iRef < 0 ∧ k ≤ d.cap
  | .unlockN i _ => Live s i
  | .unlock i => Live s i

/-- the handles an operation may change -/
def Op.targets : Op → List Nat
  | .new => []
  | .copy _ _ => []
  | .move j => [j]
  | .del i => [i]
  | .clear i => [i]
  | .setStr i _ _ => [i]
  | .setNull i => [i]
  | .assign i _ _ => [i]
  | .moveAssign i j => [i, j]
  | .append i _ _ => [i]
  | .appendS i _ _ => [i]
  | .appendChar i _ _ => [i]
  | .setItem i _ _ _ => [i]
  | .setEnc i _ _ => [i]
  | .remove i _ _ _ => [i]
  | .lock i _ _ => [i]
  | .write i _ _ => [i]
  | .unlockN i _ => [i]
  | .unlock i => [i]

/-! ### Counting handles -/

def cnt (hs : List (Option Nat)) (a : Nat) : Nat := hs.count (some a)

theorem cnt_set (hs : List (Option Nat)) (i : Nat) (x y : Option Nat) (h : hs[i]? = some x) (a : Nat) :
    cnt (hs.set i y) a + (if x = some a then 1 else 0) = cnt hs a + (if y = some a then 1 else 0) := by
  unfold cnt
  induction hs generalizing i with
  | nil => simp at h
  | cons z t ih =>
    cases i with
    | zero =>
      simp at h; subst h
      simp only [List.set_cons_zero, List.count_cons, beq_iff_eq]
      omega
    | succ i =>
      simp at h
      have := ih i h
      simp only [List.set_cons_succ, List.count_cons]
      omega

theorem cnt_split {hs : List (Option Nat)} {i p : Nat} (h : hs[i]? = some (some p)) :
    cnt hs = plus (cnt (hs.set i none)) p := by
  funext a
  have := cnt_set hs i (some p) none h a
  simp only [plus]
  by_cases e : a = p
  · subst e; simp at this ⊢; omega
  · have e' : ¬ some p = some a := by intro h; cases h; exact e rfl
    rw [if_neg e'] at this
    rw [if_neg e]
    simp at this; omega

theorem cnt_put {hs : List (Option Nat)} {i p : Nat} (x : Nat) (h : hs[i]? = some (some p)) :
    cnt (hs.set i (some x)) = plus (cnt (hs.set i none)) x := by
  have hi : i < hs.length := by
    rcases Nat.lt_or_ge i hs.length with h' | h'
    · exact h'
    · rw [List.getElem?_eq_none h'] at h; cases h
  have h2 : (hs.set i (some x))[i]? = some (some x) := by rw [List.getElem?_set_self hi]
  have := cnt_split h2
  rw [List.set_set] at this
  exact this

theorem cnt_pos {hs : List (Option Nat)} {k a : Nat} (h : hs[k]? = some (some a)) : 0 < cnt hs a :=
  List.count_pos_iff.2 (List.mem_of_getElem? h)

theorem cnt_pos_iff {hs : List (Option Nat)} {a : Nat} : 0 < cnt hs a ↔ ∃ k : Nat, hs[k]? = some (some a) := by
  constructor
  · intro h
    exact List.mem_iff_getElem?.1 (List.count_pos_iff.1 h)
  · rintro ⟨k, h⟩; exact cnt_pos h

theorem oth_pos {hs : List (Option Nat)} {k i a : Nat} (hk : k ≠ i) (h : hs[k]? = some (some a)) :
    0 < cnt (hs.set i none) a :=
  cnt_pos (k := k) (by rw [List.getElem?_set_ne (Ne.symm hk)]; exact h)

theorem oth_pos_iff {hs : List (Option Nat)} {i a : Nat} :
    0 < cnt (hs.set i none) a ↔ ∃ k : Nat, k ≠ i ∧ hs[k]? = some (some a) := by
  constructor
  · intro h
    obtain ⟨k, hk⟩ := cnt_pos_iff.1 h
    by_cases e : k = i
    · subst e
      rw [List.getElem?_set] at hk
      simp at hk
    · exact ⟨k, e, by rwa [List.getElem?_set_ne (Ne.symm e)] at hk⟩
  · rintro ⟨k, hk, h⟩; exact oth_pos hk h

theorem cnt_le (hs : List (Option Nat)) (a : Nat) : cnt hs a ≤ hs.length := List.count_le_length

/-- the ownership invariant of the whole program -/
def Inv (cls : Nat) (s : St) : Prop := WF cls s.mem (cnt s.hs)

/-- few enough handles that `iRef` cannot reach INT_MAX -/
def Few (s : St) : Prop := (s.hs.length : Int) + 4 < imax

theorem few_bd {s : St} (hf : Few s) (i p q : Nat) : Bd (plus (plus (cnt (s.hs.set i none)) p) q) := by
  intro a _
  have := cnt_le (s.hs.set i none) a
  rw [List.length_set] at this
  unfold Few at hf
  simp only [plus]
  split <;> split <;> omega

theorem few_bd0 {s : St} (hf : Few s) (i : Nat) : Bd (cnt (s.hs.set i none)) := by
  intro a ha
  have := few_bd hf i 0 0 a ha
  simp only [plus] at this
  omega

/-- all handles but `i` look the same -/
def Others (s s' : St) (i : Nat) : Prop :=
  s'.hs.length = s.hs.length ∧
  ∀ k, k ≠ i → s'.hs[k]? = s.hs[k]? ∧ (blk s' k).map look = (blk s k).map look

theorem look_obs {m m' : Mem} {a : Nat} (h : obs m' a = obs m a) : (m' a).map look = (m a).map look := by
  unfold obs at h
  cases h1 : m' a with
  | none => rw [h1] at h; cases h2 : m a with
    | none => rfl
    | some d => rw [h2] at h; simp at h
  | some d' =>
    rw [h1] at h
    cases h2 : m a with
    | none => rw [h2] at h; simp at h
    | some d =>
      rw [h2] at h
      simp at h
      obtain ⟨x1, x2, x3, x4, x5⟩ := h
      simp only [Option.map_some, look, SD.text, x2, x3, x4, x5]
      congr 5
      by_cases hn : d.iRef < 0
      · rw [if_pos hn, if_pos (by omega)]; omega
      · rw [if_neg hn, if_neg (by omega)]

/-- outcome of a member function on handle `i` as seen by the program -/
def WPost (cls : Nat) (s : St) (i : Nat) (out : Out) (Q : Hr → SD → Prop) (T : SD → Prop) : Prop :=
  match out with
  | .ub => False
  | .thr s' => Inv cls s' ∧ Others s s' i ∧ ∃ d', blk s' i = some d' ∧ T d'
  | .ret hr s' => Inv cls s' ∧ Others s s' i ∧ ∃ d', blk s' i = some d' ∧ Q hr d'

theorem commit {cls s i p m' p' d'} (hi : s.hs[i]? = some (some p)) (L : Loc cls (cnt (s.hs.set i none)) s.mem m' p')
    (hd : m' p' = some d') :
    Inv cls ⟨m', s.hs.set i (some p')⟩ ∧ Others s ⟨m', s.hs.set i (some p')⟩ i ∧ blk ⟨m', s.hs.set i (some p')⟩ i = some d' := by
  have hlt : i < s.hs.length := by
    rcases Nat.lt_or_ge i s.hs.length with h' | h'
    · exact h'
    · rw [List.getElem?_eq_none h'] at hi; cases hi
  refine ⟨?_, ⟨by simp, ?_⟩, ?_⟩
  · unfold Inv; dsimp only; rw [cnt_put p' hi]; exact L.wf
  · intro k hk
    have e : (s.hs.set i (some p'))[k]? = s.hs[k]? := List.getElem?_set_ne (Ne.symm hk)
    refine ⟨e, ?_⟩
    unfold blk; dsimp only; rw [e]
    cases h : s.hs[k]? with
    | none => rfl
    | some x =>
      cases x with
      | none => rfl
      | some a => exact look_obs (L.frame a (oth_pos hk h))
  · unfold blk; dsimp only; rw [List.getElem?_set_self hlt]; exact hd

theorem onHandle_ok {cls s i p f Q T} (hi : s.hs[i]? = some (some p))
    (h : Post cls (cnt (s.hs.set i none)) s.mem (f s.mem p) Q T) : WPost cls s i (onHandle s i f) Q T := by
  unfold onHandle; rw [hi]; dsimp only
  unfold Post at h
  split at h
  · exact h.elim
  · rename_i m' p' e
    obtain ⟨L, d', g, hT⟩ := h
    rw [e]
    obtain ⟨a, b, c⟩ := commit hi L g
    exact ⟨a, b, d', c, hT⟩
  · rename_i hr m' p' e
    obtain ⟨L, d', g, hQ⟩ := h
    rw [e]
    obtain ⟨a, b, c⟩ := commit hi L g
    exact ⟨a, b, d', c, hQ⟩

theorem WPost.mono {cls s i out Q T Q' T'} (h : WPost cls s i out Q T) (hq : ∀ hr d, Q hr d → Q' hr d)
    (ht : ∀ d, T d → T' d) : WPost cls s i out Q' T' := by
  unfold WPost at *
  split at h
  · exact h
  · obtain ⟨a, b, d, c, e⟩ := h; exact ⟨a, b, d, c, ht d e⟩
  · obtain ⟨a, b, d, c, e⟩ := h; exact ⟨a, b, d, c, hq _ d e⟩

/-- everything a member-function lemma needs about handle `i` -/
theorem handle_facts {cls s i} (inv : Inv cls s) (hl : Live s i) :
    ∃ p d, s.hs[i]? = some (some p) ∧ s.mem p = some d ∧ blk s i = some d ∧ WF cls s.mem (plus (cnt (s.hs.set i none)) p) := by
  obtain ⟨p, hp⟩ := hl
  have w : WF cls s.mem (plus (cnt (s.hs.set i none)) p) := by rw [← cnt_split hp]; exact inv
  obtain ⟨d, hd⟩ := w.live (plus_pos _ p)
  refine ⟨p, d, hp, hd, ?_, w⟩
  unfold blk; rw [hp]; exact hd

theorem sharedWith_iff {cls s i p d} (hp : s.hs[i]? = some (some p)) (hd : s.mem p = some d) (p0 : p ≠ 0)
    (w : WF cls s.mem (plus (cnt (s.hs.set i none)) p)) : SharedWith s i ↔ d.isShared := by
  constructor
  · rintro ⟨k, hk, a, ha, hka⟩
    rw [hp] at ha; cases ha
    have := oth_pos hk hka
    rcases w.cases hd p0 with e | e
    · omega
    · exact e.1
  · intro hs
    rcases w.cases hd p0 with e | e
    · exact absurd hs e.2.2
    · obtain ⟨k, hk, hka⟩ := oth_pos_iff.1 e.2.1
      exact ⟨k, hk, p, hp, hka⟩

theorem shared_of {cls s i p d} (hp : s.hs[i]? = some (some p)) (hd : s.mem p = some d)
    (w : WF cls s.mem (plus (cnt (s.hs.set i none)) p)) (h : SharedWith s i) : d.isShared := by
  by_cases p0 : p = 0
  · subst p0; have := w.zero_eq hd; subst this; simp [SD.isShared, emptySD, imax]
  · exact (sharedWith_iff hp hd p0 w).1 h

theorem fresh_of {cls s i p d al} (hp : s.hs[i]? = some (some p)) (hd : s.mem p = some d)
    (w : WF cls s.mem (plus (cnt (s.hs.set i none)) p)) (h : AlOk s i al) : Fresh s.mem p al := by
  intro q j e
  obtain ⟨q0, hq⟩ := h q j e
  refine ⟨q0, ?_⟩
  rcases hq with hq | ⟨hq, hn⟩
  · exact .inl hq
  · rw [hp] at hq; cases hq
    exact .inr ⟨rfl, d, hd, fun hs => hn ((sharedWith_iff hp hd q0 w).2 hs)⟩

theorem drop_take_text (d : SD) (off n : Nat) (h : off + n ≤ d.size) :
    (d.text.drop off).take n = (List.range n).map fun i => d.buf (off + i) := by
  apply List.ext_getElem?
  intro k
  by_cases hk : k < n
  · rw [List.getElem?_take_of_lt hk, List.getElem?_drop, text_get _ _ (by omega), List.getElem?_map, List.getElem?_range hk]; rfl
  · rw [List.getElem?_eq_none (by simp only [List.length_take, List.length_drop, text_length]; omega),
      List.getElem?_eq_none (by simp; omega)]

theorem src_facts {cls s i src} (inv : Inv cls s) (h : SrcValid s i src) :
    ∃ ptr, ptrOf s src = some ptr ∧ SrcOk (cnt (s.hs.set i none)) s.mem ptr ∧ ptr.chars s.mem = srcText s src := by
  cases src with
  | ext l =>
    refine ⟨.ext l, rfl, trivial, ?_⟩
    simp only [Ptr.chars, Ptr.len, srcText]
    apply List.ext_getElem?
    intro k
    by_cases hk : k < l.length
    · rw [List.getElem?_map, List.getElem?_range hk]; simp [Ptr.ch, hk]
    · rw [List.getElem?_eq_none (by simp; omega), List.getElem?_eq_none (by omega)]
  | of h' off n =>
    obtain ⟨⟨d, hb, hr⟩, hk⟩ := h
    have hb' := hb
    unfold blk at hb
    split at hb
    · rename_i a ha
      refine ⟨.inn a off n, ?_, ?_, ?_⟩
      · unfold ptrOf; dsimp only; rw [ha]
      · have hsz := inv.size_le hb
        rcases hk with hk | hk | ⟨k, hk, a', ha', hka⟩
        · exact .inl hk
        · exact .inr ⟨oth_pos hk ha, d, hb, by omega⟩
        · by_cases e : h' = i
          · subst e; rw [ha] at ha'; cases ha'
            exact .inr ⟨oth_pos hk hka, d, hb, by omega⟩
          · exact .inr ⟨oth_pos e ha, d, hb, by omega⟩
      · unfold srcText; dsimp only; rw [hb']; dsimp only
        rw [drop_take_text _ _ _ hr]
        unfold Ptr.chars; simp only [Ptr.len]
        apply List.map_congr_left; intro k _; simp only [Ptr.ch]; rw [hb]
    · cases hb

theorem onHandleP_eq {s i src ptr f} (h : ptrOf s src = some ptr) : onHandleP s i src f = onHandle s i (fun m p => f m p ptr) := by
  unfold onHandleP; rw [h]

theorem onHandle2_eq {s i j a f} (h : s.hs[j]? = some (some a)) : onHandle2 s i j f = onHandle s i (fun m p => f m p a) := by
  unfold onHandle2; rw [h]

end Verif.StrHeap
