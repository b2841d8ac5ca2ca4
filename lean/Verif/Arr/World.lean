import Verif.Arr.Ops

/-! From one handle to the whole program: preconditions, what users see, and what one step does. -/

namespace Verif.Arr

variable {α : Type}

/-! ### Vocabulary of the properties -/

/-- the block handle `i` refers to -/
def blk (s : St α) (i : Nat) : Option (Blk α) :=
  match s.hs[i]? with
  | some (some a) => s.mem a
  | _ => none

/-- what a user can see of an Array: its elements, the capacity and the number of locks -/
def look (d : Blk α) : List (Slot α) × Nat × Nat := (d.content, d.buf.length, d.locks)

/-- handle `i` is a live Array object -/
def Live (s : St α) (i : Nat) : Prop := ∃ a, s.hs[i]? = some (some a)

/-- another live handle shares the block of handle `i` -/
def SharedWith (s : St α) (i : Nat) : Prop := ∃ k, k ≠ i ∧ ∃ a, s.hs[i]? = some (some a) ∧ s.hs[k]? = some (some a)

/-- handle `i` is locked -/
def IsLocked (s : St α) (i : Nat) : Prop := ∃ d, blk s i = some d ∧ d.isLocked

/-- the allocator answers with an unused address; `realloc` of handle `i`'s own unshared block of trivially copyable elements may answer with the address it already has -/
def AlOk (T : Ty α) (s : St α) (i : Nat) (al : Al) : Prop :=
  ∀ q, al = some q → q ≠ 0 ∧ (s.mem q = none ∨ (s.hs[i]? = some (some q) ∧ ¬ SharedWith s i ∧ T.triv = true))

/-- the elements a source argument designates -/
def srcSlots (s : St α) : Src α → List (Slot α)
  | .ext l => l.map .val
  | .of h off n =>
    match blk s h with
    | some d => (d.content.drop off).take n
    | none => []

def itemSlot (s : St α) : Src1 α → Slot α
  | .ext v => .val v
  | .of h off => ((blk s h).bind fun d => d.content[off]?).getD .raw

/-- a source range for handle `i`: external memory or existing elements of a live Array, and not elements of `i` itself unless another handle shares the block -/
def SrcValid (s : St α) (i : Nat) : Src α → Prop
  | .ext _ => True
  | .of h off n => (∃ d, blk s h = some d ∧ off + n ≤ d.size) ∧ (h ≠ i ∨ SharedWith s i)

def ItemExists (s : St α) : Src1 α → Prop
  | .ext _ => True
  | .of h off => ∃ d, blk s h = some d ∧ off < d.size

def ItemForeign (s : St α) (i : Nat) : Src1 α → Prop
  | .ext _ => True
  | .of h _ => h ≠ i ∨ SharedWith s i

/-- preconditions of the operations: live handles, a sane allocator, source arguments that exist and (except for `SetItem`) are not elements of the modified array itself, no move from or to a locked
array, no assignment of an unlocked array to a locked one, and stores only through a locked buffer within its size -/
def Valid (T : Ty α) (s : St α) : Op α → Prop
  | .new => True
  | .copy j al => Live s j ∧ ∀ q, al = some q → q ≠ 0 ∧ s.mem q = none
  | .moveNew j => Live s j ∧ ¬ IsLocked s j
  | .del i => Live s i
  | .clear i => Live s i
  | .setArr i src al => Live s i ∧ AlOk T s i al ∧ SrcValid s i src
  | .assign i j al => Live s i ∧ Live s j ∧ AlOk T s i al ∧ (IsLocked s i → IsLocked s j)
  | .moveAssign i j => Live s i ∧ Live s j ∧ ¬ IsLocked s i ∧ ¬ IsLocked s j
  | .reserve i _ al => Live s i ∧ AlOk T s i al
  | .resize i _ al => Live s i ∧ AlOk T s i al
  | .lock i _ al => Live s i ∧ AlOk T s i al
  | .unlock i => Live s i
  | .write i k _ => ∃ d, blk s i = some d ∧ d.isLocked ∧ k < d.size
  | .setItem i _ v al => Live s i ∧ AlOk T s i al ∧ ItemExists s v
  | .add i _ al => Live s i ∧ AlOk T s i al
  | .addN i src al => Live s i ∧ AlOk T s i al ∧ SrcValid s i src
  | .insert i _ v al => Live s i ∧ AlOk T s i al ∧ ItemExists s v ∧ ItemForeign s i v
  | .remove i _ _ al => Live s i ∧ AlOk T s i al

/-- the handles an operation may change -/
def Op.targets : Op α → List Nat
  | .new => []
  | .copy _ _ => []
  | .moveNew j => [j]
  | .moveAssign i j => [i, j]
  | .del i | .clear i | .setArr i _ _ | .assign i _ _ | .reserve i _ _ | .resize i _ _ | .lock i _ _ | .unlock i | .write i _ _ | .setItem i _ _ _ | .add i _ _ | .addN i _ _
  | .insert i _ _ _ | .remove i _ _ _ => [i]

/-- the handle a member function is called on -/
def Op.self? : Op α → Option Nat
  | .new | .copy _ _ | .moveNew _ | .moveAssign _ _ | .del _ => none
  | .clear i | .setArr i _ _ | .assign i _ _ | .reserve i _ _ | .resize i _ _ | .lock i _ _ | .unlock i | .write i _ _ | .setItem i _ _ _ | .add i _ _ | .addN i _ _
  | .insert i _ _ _ | .remove i _ _ _ => some i

/-- the allocator's answer to the operation -/
def Op.al : Op α → Al
  | .copy _ al | .setArr _ _ al | .assign _ _ al | .reserve _ _ al | .resize _ _ al | .lock _ _ al | .setItem _ _ _ al | .add _ _ al | .addN _ _ al | .insert _ _ _ al | .remove _ _ _ al => al
  | _ => some 0

/-- the index is out of range for an array of `n` elements -/
def Op.beyond (n : Nat) : Op α → Prop
  | .setItem _ k _ _ => n ≤ k
  | .insert _ k _ _ => n < k
  | _ => False

/-- the elements a member function should leave when it succeeds, for an array that had `c` -/
def want (T : Ty α) (s : St α) (c : List (Slot α)) : Op α → List (Slot α)
  | .clear _ => []
  | .setArr _ src _ => srcSlots s src
  | .assign _ j _ => ((blk s j).map Blk.content).getD []
  | .resize _ n _ | .lock _ n _ => c.take n ++ List.replicate (n - c.length) (.val T.z)
  | .write _ k v => c.set k (.val v)
  | .setItem _ k v _ => c.set k (itemSlot s v)
  | .add _ v _ => c ++ [.val v]
  | .addN _ src _ => c ++ srcSlots s src
  | .insert _ k v _ => inserted T c k (itemSlot s v)
  | .remove _ k n _ => if n = 0 ∨ c.length ≤ k then c else if k = 0 ∧ c.length ≤ n then [] else removed T c k (min n (c.length - k))
  | _ => c

/-- what a member function of an array with block `d` may do: succeed, report missing memory or a wrong index and change nothing -/
structure Meets (T : Ty α) (s : St α) (op : Op α) (d : Blk α) (hr : Hr) (d' : Blk α) : Prop where
  ok : hr = .ok → d'.content = want T s d.content op
  locks : hr = .ok → match op with
    | .lock _ n _ => d'.locks = d.locks + 1 ∨ (n = 0 ∧ d.size = 0 ∧ d.isShared ∧ d'.locks = 0)
    | .unlock _ => d'.locks + 1 = d.locks
    | _ => d'.locks = d.locks
  oom : hr = .oom → op.al = none ∧ Kept d d'
  bounds : hr = .bounds ↔ op.beyond d.size
  kept : hr = .bounds → Kept d d'

/-- what an exception means: only from a locked array (`UnlockBuffer`: from one that is not locked), which is unchanged -/
def Thrown (op : Op α) (d d' : Blk α) : Prop := Kept d d' ∧ match op with
  | .unlock _ => ¬ d.isLocked
  | _ => d.isLocked

/-! ### Counting handles -/

def cnt (hs : List (Option Nat)) (a : Nat) : Nat := hs.count (some a)

theorem cnt_set (hs : List (Option Nat)) (i : Nat) (x y : Option Nat) (h : hs[i]? = some x) (a : Nat) :
    cnt (hs.set i y) a + (if x = some a then 1 else 0) = cnt hs a + (if y = some a then 1 else 0) := by
  unfold cnt
  induction hs generalizing i with
  | nil => simp at h
  | cons z t ih =>
    cases i with
    | zero =>
      simp at h; subst h
      simp only [List.set_cons_zero, List.count_cons, beq_iff_eq]
      omega
    | succ i =>
      simp at h
      have := ih i h
      simp only [List.set_cons_succ, List.count_cons]
      omega

theorem cnt_split {hs : List (Option Nat)} {i p : Nat} (h : hs[i]? = some (some p)) : cnt hs = plus (cnt (hs.set i none)) p := by
  funext a
  have := cnt_set hs i (some p) none h a
  simp only [plus]
  by_cases e : a = p
  · subst e; simp at this ⊢; omega
  · have e' : ¬ some p = some a := by intro h; cases h; exact e rfl
    rw [if_neg e'] at this
    rw [if_neg e]
    simp at this; omega

theorem lt_of_get {β : Type} {l : List β} {i : Nat} {x : β} (h : l[i]? = some x) : i < l.length := by
  rcases Nat.lt_or_ge i l.length with h' | h'
  · exact h'
  · rw [List.getElem?_eq_none h'] at h; cases h

theorem cnt_put {hs : List (Option Nat)} {i p : Nat} (x : Nat) (h : hs[i]? = some (some p)) : cnt (hs.set i (some x)) = plus (cnt (hs.set i none)) x := by
  have h2 : (hs.set i (some x))[i]? = some (some x) := by rw [List.getElem?_set_self (lt_of_get h)]
  have := cnt_split h2
  rw [List.set_set] at this
  exact this

theorem cnt_pos {hs : List (Option Nat)} {k a : Nat} (h : hs[k]? = some (some a)) : 0 < cnt hs a :=
  List.count_pos_iff.2 (List.mem_of_getElem? h)

theorem cnt_pos_iff {hs : List (Option Nat)} {a : Nat} : 0 < cnt hs a ↔ ∃ k : Nat, hs[k]? = some (some a) := by
  constructor
  · intro h
    exact List.mem_iff_getElem?.1 (List.count_pos_iff.1 h)
  · rintro ⟨k, h⟩; exact cnt_pos h

theorem oth_pos {hs : List (Option Nat)} {k i a : Nat} (hk : k ≠ i) (h : hs[k]? = some (some a)) : 0 < cnt (hs.set i none) a :=
  cnt_pos (k := k) (by rw [List.getElem?_set_ne (Ne.symm hk)]; exact h)

theorem oth_pos_iff {hs : List (Option Nat)} {i a : Nat} : 0 < cnt (hs.set i none) a ↔ ∃ k : Nat, k ≠ i ∧ hs[k]? = some (some a) := by
  constructor
  · intro h
    obtain ⟨k, hk⟩ := cnt_pos_iff.1 h
    by_cases e : k = i
    · subst e
      rw [List.getElem?_set] at hk
      simp at hk
    · exact ⟨k, e, by rwa [List.getElem?_set_ne (Ne.symm e)] at hk⟩
  · rintro ⟨k, hk, h⟩; exact oth_pos hk h

theorem cnt_le (hs : List (Option Nat)) (a : Nat) : cnt hs a ≤ hs.length := List.count_le_length

theorem cnt_push (hs : List (Option Nat)) (x : Nat) : cnt (hs ++ [some x]) = plus (cnt hs) x := by
  funext a
  simp only [cnt, List.count_append, plus, List.count_cons, List.count_nil, Nat.zero_add, beq_iff_eq]
  by_cases h : a = x
  · subst h; simp
  · rw [if_neg h, if_neg (by intro e; cases e; exact h rfl)]

/-- the ownership invariant of the whole program -/
def Inv (T : Ty α) (s : St α) : Prop := WF T s.mem (cnt s.hs)

/-- few enough handles that `iRef` cannot reach its maximum -/
def Few (s : St α) : Prop := (s.hs.length : Int) + 4 < imax

theorem few_bd {s : St α} (hf : Few s) (i p q : Nat) : Bd (plus (plus (cnt (s.hs.set i none)) p) q) := by
  intro a _
  have := cnt_le (s.hs.set i none) a
  rw [List.length_set] at this
  unfold Few at hf
  simp only [plus]
  split <;> split <;> omega

theorem few_bd0 {s : St α} (hf : Few s) (i : Nat) : Bd (cnt (s.hs.set i none)) := by
  intro a ha
  have := few_bd hf i 0 0 a ha
  simp only [plus] at this
  omega

theorem few_bd1 {s : St α} (hf : Few s) : Bd (cnt s.hs) := by
  intro a _
  have := cnt_le s.hs a
  unfold Few at hf; omega

theorem few_bd2 {s : St α} (hf : Few s) (p q : Nat) : Bd (plus (plus (cnt s.hs) p) q) := by
  intro a _
  have := cnt_le s.hs a
  unfold Few at hf
  simp only [plus]
  split <;> split <;> omega

/-- all handles outside the list look the same -/
def Same (s s' : St α) (ts : List Nat) : Prop :=
  ∀ k, k ∉ ts → k < s.hs.length → s'.hs[k]? = s.hs[k]? ∧ (blk s' k).map look = (blk s k).map look

theorem look_obs {m m' : Mem α} {a : Nat} (h : obs m' a = obs m a) : (m' a).map look = (m a).map look := by
  unfold obs at h
  cases h1 : m' a with
  | none => rw [h1] at h; cases h2 : m a with
    | none => rfl
    | some d => rw [h2] at h; simp at h
  | some d' =>
    rw [h1] at h
    cases h2 : m a with
    | none => rw [h2] at h; simp at h
    | some d =>
      rw [h2] at h
      simp at h
      obtain ⟨x1, x2, x3⟩ := h
      have hl : d'.locks = d.locks := by unfold Blk.locks; omega
      simp only [Option.map_some, look, Blk.content, x2, x3, hl]

theorem same_mem {m m' : Mem α} {hs hs' : List (Option Nat)} {ts : List Nat} (hh : ∀ k, k ∉ ts → k < hs.length → hs'[k]? = hs[k]?)
    (h : ∀ k a, k ∉ ts → hs[k]? = some (some a) → obs m' a = obs m a) : Same ⟨m, hs⟩ ⟨m', hs'⟩ ts := by
  intro k hk hl
  refine ⟨hh k hk hl, ?_⟩
  unfold blk; dsimp only; rw [hh k hk hl]
  cases h1 : hs[k]? with
  | none => rfl
  | some y =>
    cases y with
    | none => rfl
    | some a => exact look_obs (h k a hk h1)

/-- outcome of a member function on handle `i` as seen by the program -/
def WPost (T : Ty α) (s : St α) (i : Nat) (out : Out α) (Q : Hr → Blk α → Prop) (Th : Blk α → Prop) : Prop :=
  match out with
  | .ub => False
  | .abort => False
  | .thr s' => Inv T s' ∧ Same s s' [i] ∧ s'.hs.length = s.hs.length ∧ ∃ d', blk s' i = some d' ∧ Th d'
  | .ret hr s' => Inv T s' ∧ Same s s' [i] ∧ s'.hs.length = s.hs.length ∧ ∃ d', blk s' i = some d' ∧ Q hr d'

theorem commit {T : Ty α} {s i p m' p' d'} (hi : s.hs[i]? = some (some p)) (L : Loc T (cnt (s.hs.set i none)) s.mem m' p') (hd : m' p' = some d') :
    Inv T ⟨m', s.hs.set i (some p')⟩ ∧ Same s ⟨m', s.hs.set i (some p')⟩ [i] ∧ blk ⟨m', s.hs.set i (some p')⟩ i = some d' := by
  refine ⟨?_, same_mem ?_ ?_, ?_⟩
  · unfold Inv; dsimp only; rw [cnt_put p' hi]; exact L.wf
  · intro k hk _; exact List.getElem?_set_ne (Ne.symm (by simpa using hk))
  · intro k a hk h; exact L.frame a (oth_pos (by simpa using hk) h)
  · unfold blk; dsimp only; rw [List.getElem?_set_self (lt_of_get hi)]; exact hd

theorem onHandle_ok {T : Ty α} {s i p f Q Th} (hi : s.hs[i]? = some (some p)) (h : Post T (cnt (s.hs.set i none)) s.mem (f s.mem p) Q Th) : WPost T s i (onHandle s i f) Q Th := by
  unfold onHandle; rw [hi]; dsimp only
  unfold Post at h
  split at h
  · exact h.elim
  · rename_i m' p' e
    obtain ⟨L, d', g, hT⟩ := h
    rw [e]
    obtain ⟨a, b, c⟩ := commit hi L g
    exact ⟨a, b, by simp, d', c, hT⟩
  · rename_i hr m' p' e
    obtain ⟨L, d', g, hQ⟩ := h
    rw [e]
    obtain ⟨a, b, c⟩ := commit hi L g
    exact ⟨a, b, by simp, d', c, hQ⟩

/-- everything a member-function lemma needs about handle `i` -/
theorem handle_facts {T : Ty α} {s i} (inv : Inv T s) (hl : Live s i) :
    ∃ p d, s.hs[i]? = some (some p) ∧ s.mem p = some d ∧ blk s i = some d ∧ WF T s.mem (plus (cnt (s.hs.set i none)) p) := by
  obtain ⟨p, hp⟩ := hl
  have w : WF T s.mem (plus (cnt (s.hs.set i none)) p) := by rw [← cnt_split hp]; exact inv
  obtain ⟨d, hd⟩ := w.live (plus_pos _ p)
  refine ⟨p, d, hp, hd, ?_, w⟩
  unfold blk; rw [hp]; exact hd

theorem blk_eq {s : St α} {i a : Nat} (h : s.hs[i]? = some (some a)) : blk s i = s.mem a := by
  unfold blk; rw [h]

theorem live_of_blk {s : St α} {k : Nat} {x : Blk α} (h : blk s k = some x) : ∃ a, s.hs[k]? = some (some a) ∧ s.mem a = some x := by
  unfold blk at h
  split at h
  · rename_i a ha; exact ⟨a, ha, h⟩
  · cases h

theorem sharedWith_iff {T : Ty α} {s i p d} (hp : s.hs[i]? = some (some p)) (hd : s.mem p = some d) (p0 : p ≠ 0)
    (w : WF T s.mem (plus (cnt (s.hs.set i none)) p)) : SharedWith s i ↔ d.isShared := by
  constructor
  · rintro ⟨k, hk, a, ha, hka⟩
    rw [hp] at ha; cases ha
    have := oth_pos hk hka
    rcases w.cases hd p0 with e | e
    · omega
    · exact e.1
  · intro hs
    rcases w.cases hd p0 with e | e
    · exact absurd hs e.2.2
    · obtain ⟨k, hk, hka⟩ := oth_pos_iff.1 e.2.1
      exact ⟨k, hk, p, hp, hka⟩

theorem fresh_of {T : Ty α} {s i p d al} (hp : s.hs[i]? = some (some p)) (hd : s.mem p = some d)
    (w : WF T s.mem (plus (cnt (s.hs.set i none)) p)) (h : AlOk T s i al) : Fresh T s.mem p al := by
  intro q e
  obtain ⟨q0, hq⟩ := h q e
  refine ⟨q0, ?_⟩
  rcases hq with hq | ⟨hq, hn, t⟩
  · exact .inl hq
  · rw [hp] at hq; cases hq
    exact .inr ⟨rfl, d, hd, fun hs => hn ((sharedWith_iff hp hd q0 w).2 hs), t⟩

theorem oth_of_foreign {s : St α} {i h a : Nat} (ha : s.hs[h]? = some (some a)) (hk : h ≠ i ∨ SharedWith s i) : 0 < cnt (s.hs.set i none) a := by
  by_cases e : h = i
  · subst e
    rcases hk with hk | ⟨k, hk, a', ha', hka⟩
    · exact absurd rfl hk
    · rw [ha] at ha'; cases ha'; exact oth_pos hk hka
  · exact oth_pos e ha

theorem src_facts {T : Ty α} {s i src} (h : SrcValid s i src) :
    ∃ ptr, ptrOf s src = some ptr ∧ SrcOk T (cnt (s.hs.set i none)) s.mem ptr ∧ ptr.vals s.mem = srcSlots s src := by
  cases src with
  | ext l => exact ⟨.ext l, rfl, trivial, rfl⟩
  | of h' off n =>
    obtain ⟨⟨d, hb, hr⟩, hk⟩ := h
    obtain ⟨a, ha, hm⟩ := live_of_blk hb
    refine ⟨.inn a off n, ?_, ⟨oth_of_foreign ha hk, d, hm, hr⟩, ?_⟩
    · unfold ptrOf; dsimp only; rw [ha]
    · unfold srcSlots Ptr.vals; dsimp only; rw [hb, hm]

theorem item_facts {s : St α} {i v} (h : ItemExists s v) :
    ∃ x, itemOf s v = some x ∧ x.val s.mem = itemSlot s v ∧ (ItemForeign s i v → ItemOk (cnt (s.hs.set i none)) s.mem x) ∧
      (¬ ItemForeign s i v → ∃ off d a, x = .inn a off ∧ s.hs[i]? = some (some a) ∧ s.mem a = some d ∧ off < d.size ∧ ¬ SharedWith s i) := by
  cases v with
  | ext v => exact ⟨.ext v, rfl, rfl, fun _ => trivial, fun h => absurd trivial h⟩
  | of h' off =>
    obtain ⟨d, hb, hr⟩ := h
    obtain ⟨a, ha, hm⟩ := live_of_blk hb
    refine ⟨.inn a off, ?_, ?_, fun hk => ⟨oth_of_foreign ha hk, d, hm, hr⟩, fun hk => ?_⟩
    · unfold itemOf; dsimp only; rw [ha]
    · unfold itemSlot Item.val; dsimp only; rw [hb, hm]
    · have e : h' = i := Classical.byContradiction fun e => hk (.inl e)
      subst e
      exact ⟨off, d, a, rfl, ha, hm, hr, fun hs => hk (.inr hs)⟩

/-! ### one step of a member function -/

theorem does_meets {T : Ty α} {s : St α} {op : Op α} {d d' : Blk α} {hr : Hr} (h : Does op.al d (want T s d.content op) d.locks hr d')
    (h1 : ∀ i n al, op ≠ .lock i n al) (h2 : ∀ i, op ≠ .unlock i) (hb : ¬ op.beyond d.size) : Meets T s op d hr d' := by
  rcases h with ⟨rfl, c, l⟩ | ⟨rfl, ha, hk⟩
  · refine ⟨fun _ => c, fun _ => ?_, nofun, ⟨nofun, fun h => absurd h hb⟩, nofun⟩
    cases op <;> first | exact l | exact absurd rfl (h1 _ _ _) | exact absurd rfl (h2 _)
  · exact ⟨nofun, nofun, fun _ => ⟨ha, hk⟩, ⟨nofun, fun h => absurd h hb⟩, nofun⟩

theorem refuses_thrown {op : Op α} {d d' : Blk α} (h : Refuses d d') (h2 : ∀ i, op ≠ .unlock i) : Thrown op d d' := by
  refine ⟨h.2, ?_⟩
  cases op <;> first | exact h.1 | exact absurd rfl (h2 _)

theorem member_step {T : Ty α} {s : St α} {op : Op α} {i : Nat} {d : Blk α} (inv : Inv T s) (few : Few s) (hv : Valid T s op) (hi : op.self? = some i) (hd : blk s i = some d) :
    WPost T s i (step T s op) (Meets T s op d) (Thrown op d) := by
  obtain ⟨p0, hp0, _⟩ := live_of_blk hd
  obtain ⟨p, d', hp, hm, hb, w⟩ := handle_facts inv ⟨p0, hp0⟩
  rw [hd] at hb; cases hb
  have bd := few_bd0 few i
  have cl := content_length (w.good hm)
  have mono : ∀ {r : Res α} {Q Th}, Post T (cnt (s.hs.set i none)) s.mem r Q Th → (∀ hr d', Q hr d' → Meets T s op d hr d') → (∀ d', Th d' → Thrown op d d') →
      Post T (cnt (s.hs.set i none)) s.mem r (Meets T s op d) (Thrown op d) := fun h a b => h.mono a b
  cases op with
  | new => cases hi
  | copy _ _ => cases hi
  | moveNew _ => cases hi
  | moveAssign _ _ => cases hi
  | del _ => cases hi
  | clear i =>
    cases hi
    refine onHandle_ok (f := clear T) hp (mono (clear_ok w bd hm) (fun hr d' h => does_meets (.inl ?_) nofun nofun nofun) (fun d' h => refuses_thrown h nofun))
    exact h
  | setArr i src al =>
    cases hi
    obtain ⟨ptr, e1, ok, ev⟩ := src_facts (T := T) hv.2.2
    simp only [step, e1]
    refine onHandle_ok hp (mono (setArr_ok w bd hm (fresh_of hp hm w hv.2.1) ok) (fun hr d' h => does_meets ?_ nofun nofun nofun) (fun d' h => refuses_thrown h nofun))
    rw [ev] at h; exact h
  | assign i j al =>
    cases hi
    obtain ⟨a, hj⟩ := hv.2.1
    obtain ⟨e, he⟩ := inv.live (cnt_pos hj)
    simp only [step, hj]
    have hoa : 0 < cnt (s.hs.set i none) a ∨ a = p := by
      by_cases e : j = i
      · subst e; rw [hp] at hj; cases hj; exact .inr rfl
      · exact .inl (oth_pos e hj)
    refine onHandle_ok hp (mono (assign_ok w (few_bd few i p a) hm (fresh_of hp hm w hv.2.2.1) hoa he ?_) (fun hr d' h => does_meets ?_ nofun nofun nofun) (fun d' h => refuses_thrown h nofun))
    · intro hl
      obtain ⟨e', he', hl'⟩ := hv.2.2.2 ⟨d, hd, hl⟩
      rw [blk_eq hj, he] at he'; cases he'
      exact .inl hl'
    · simp only [want, blk_eq hj, he]; exact h
  | reserve i n al =>
    cases hi
    exact onHandle_ok (f := fun m p => reserve T m p n al) hp (mono (reserve_ok w bd hm (fresh_of hp hm w hv.2)) (fun hr d' h => does_meets h nofun nofun nofun) (fun d' h => refuses_thrown h nofun))
  | resize i n al =>
    cases hi
    refine onHandle_ok (f := fun m p => resize T m p n al) hp (mono (resize_ok w bd hm (fresh_of hp hm w hv.2)) (fun hr d' h => does_meets ?_ nofun nofun nofun) (fun d' h => refuses_thrown h nofun))
    simp only [want, cl]; exact h
  | lock i n al =>
    cases hi
    refine onHandle_ok (f := fun m p => lockSize T m p n al) hp (mono (lockSize_ok w bd hm (fresh_of hp hm w hv.2)) (fun hr d' h => ?_) (fun d' h => refuses_thrown h nofun))
    rcases h with ⟨rfl, ha, hk⟩ | ⟨rfl, hc, hl⟩
    · exact ⟨nofun, nofun, fun _ => ⟨ha, hk⟩, ⟨nofun, nofun⟩, nofun⟩
    · refine ⟨fun _ => by simp only [want, cl]; exact hc, fun _ => ?_, nofun, ⟨nofun, nofun⟩, nofun⟩
      exact hl
  | unlock i =>
    cases hi
    refine onHandle_ok (f := unlock) hp (mono (unlock_ok w hm) (fun hr d' h => ?_) (fun d' h => ⟨h.2, h.1⟩))
    obtain ⟨rfl, hc, _, hl⟩ := h
    exact ⟨fun _ => hc, fun _ => hl, nofun, ⟨nofun, nofun⟩, nofun⟩
  | write i k v =>
    cases hi
    obtain ⟨d', hd', hl, hk⟩ := hv
    rw [hd] at hd'; cases hd'
    exact onHandle_ok (f := fun m p => write T m p k v) hp (mono (write_ok w hm hl hk) (fun hr d' h => does_meets (.inl h) nofun nofun nofun) (fun d' h => h.elim))
  | setItem i k v al =>
    cases hi
    obtain ⟨x, e1, ev, h1, h2⟩ := item_facts (i := i) hv.2.2
    simp only [step, e1]
    refine onHandle_ok hp (mono (setItem_ok w bd hm (fresh_of hp hm w hv.2.1) ?_) (fun hr d' h => ?_) (fun d' h => refuses_thrown h nofun))
    · by_cases hf : ItemForeign s i v
      · exact .inl (h1 hf)
      · obtain ⟨off, d2, a, rfl, ha, hm2, ho, hs⟩ := h2 hf
        rw [hp] at ha; cases ha
        rw [hm] at hm2; cases hm2
        have p0 : p ≠ 0 := by
          rintro rfl
          rw [w.zero_eq hm] at ho; simp [emptyBlk] at ho
        exact .inr ⟨off, rfl, ho, fun h => hs ((sharedWith_iff hp hm p0 w).2 h)⟩
    · rcases h with ⟨hk, rfl, h⟩ | ⟨hk, h⟩
      · exact ⟨nofun, nofun, nofun, ⟨fun _ => hk, fun _ => rfl⟩, fun _ => h⟩
      · rw [ev] at h; exact does_meets h nofun nofun (Nat.not_le.2 hk)
  | add i v al =>
    cases hi
    exact onHandle_ok (f := fun m p => add T m p v al) hp (mono (add_ok w bd hm (fresh_of hp hm w hv.2)) (fun hr d' h => does_meets h nofun nofun nofun) (fun d' h => refuses_thrown h nofun))
  | addN i src al =>
    cases hi
    obtain ⟨ptr, e1, ok, ev⟩ := src_facts (T := T) hv.2.2
    simp only [step, e1]
    refine onHandle_ok hp (mono (addN_ok w bd hm (fresh_of hp hm w hv.2.1) ok) (fun hr d' h => does_meets ?_ nofun nofun nofun) (fun d' h => refuses_thrown h nofun))
    rw [ev] at h; exact h
  | insert i k v al =>
    cases hi
    obtain ⟨x, e1, ev, h1, h2⟩ := item_facts (i := i) hv.2.2.1
    simp only [step, e1]
    refine onHandle_ok hp (mono (insert_ok w bd hm (fresh_of hp hm w hv.2.1) (h1 hv.2.2.2)) (fun hr d' h => ?_) (fun d' h => refuses_thrown h nofun))
    rcases h with ⟨hk, rfl, h⟩ | ⟨hk, h⟩
    · exact ⟨nofun, nofun, nofun, ⟨fun _ => hk, fun _ => rfl⟩, fun _ => h⟩
    · rw [ev] at h; exact does_meets h nofun nofun (Nat.not_lt.2 hk)
  | remove i k n al =>
    cases hi
    refine onHandle_ok (f := fun m p => remove T m p k n al) hp (mono (remove_ok w bd hm (fresh_of hp hm w hv.2)) (fun hr d' h => does_meets ?_ nofun nofun nofun) (fun d' h => refuses_thrown h nofun))
    obtain ⟨h1, h2, h3⟩ := h
    simp only [want, cl]
    by_cases c1 : n = 0 ∨ d.size ≤ k
    · rw [if_pos c1]; exact .inl ⟨(h1 c1).1, (h1 c1).2.1, (h1 c1).2.2⟩
    · rw [if_neg c1]
      by_cases c2 : k = 0 ∧ d.size ≤ n
      · rw [if_pos c2]; exact .inl (h2 c2.1 c2.2)
      · rw [if_neg c2]; exact h3 (by omega) (by omega) c2

end Verif.Arr
