import Verif.Alloc.Model

/-! C91: memory functions. -/

namespace Verif.Alloc

/-- the bytes a live pointer to the beginning of a block leads to -/
def bytes (h : Heap) (p : Ptr) : Option (List Cell) := if p.off = 0 then (h[p.blk]?).join else none

/-- all blocks but `b` are as before -/
def Others (h h' : Heap) (b : Option Nat) : Prop := ∀ a, a < h.length → some a ≠ b → h'[a]? = h[a]?

theorem bytes_push (h : Heap) (c : List Cell) : bytes (h ++ [some c]) ⟨h.length, 0⟩ = some c := by
  simp [bytes]

theorem bytes_push_set (h : Heap) (b : Nat) (x : Option (List Cell)) (c : List Cell) : bytes (h.set b x ++ [some c]) ⟨h.length, 0⟩ = some c := by
  have := bytes_push (h.set b x) c
  rw [List.length_set] at this
  exact this

theorem others_push (h : Heap) (c : Option (List Cell)) : Others h (h ++ [c]) none := fun a ha _ => List.getElem?_append_left ha

theorem others_push_set (h : Heap) (b : Nat) (x c : Option (List Cell)) : Others h (h.set b x ++ [c]) (some b) := by
  intro a ha hn
  rw [List.getElem?_append_left (by simpa using ha), List.getElem?_set_ne (fun e => hn (by rw [e]))]

/-- **C91: `Alloc` and `AllocAndZero`** return null and change nothing, or a new block of exactly the requested size; all other blocks stay. The bytes of `AllocAndZero` are zero. -/
theorem C91_alloc (h : Heap) (n : Nat) (ok zero : Bool) :
    ∃ h' r, (if zero then allocZero h n ok else alloc h n ok) = .ok h' r ∧ Others h h' none ∧
      match r with
      | none => ok = false ∧ h' = h
      | some p => ok = true ∧ p.blk = h.length ∧ ∃ c, bytes h' p = some c ∧ c.length = n ∧ (zero = true → ∀ x ∈ c, x = some 0) := by
  cases ok <;> cases zero
  · exact ⟨h, none, rfl, fun _ _ _ => rfl, rfl, rfl⟩
  · exact ⟨h, none, rfl, fun _ _ _ => rfl, rfl, rfl⟩
  · exact ⟨_, _, rfl, others_push _ _, rfl, rfl, _, bytes_push _ _, by simp, by simp⟩
  · exact ⟨_, _, rfl, others_push _ _, rfl, rfl, _, bytes_push _ _, by simp, fun _ x hx => List.eq_of_mem_replicate hx⟩

/-- **C91: `ReAlloc` of a live block to a size other than zero** returns null and leaves the block as it was, or a block of the requested size that begins with the old bytes; the old block is gone, others stay.
`fill` is the value of the bytes behind the old ones. -/
theorem realloc_spec {h : Heap} {p : Ptr} {c : List Cell} {n : Nat} (ok : Bool) (fill : Cell) (hp : bytes h p = some c) (hn : n ≠ 0) :
    ∃ h' r, reallocWith h (some p) n fill ok = .ok h' r ∧ Others h h' (some p.blk) ∧
      match r with
      | none => ok = false ∧ h' = h
      | some q => ok = true ∧ bytes h' p = none ∧ ∃ d, bytes h' q = some d ∧ d.length = n ∧ (∀ i, i < n → i < c.length → d[i]? = c[i]?) ∧ (∀ i, c.length ≤ i → i < n → d[i]? = some fill) := by
  unfold bytes at hp
  split at hp
  · rename_i h0
    have hb : h[p.blk]? = some (some c) := by
      cases e : h[p.blk]? with
      | none => rw [e] at hp; cases hp
      | some x => rw [e] at hp; simp at hp; rw [hp]
    unfold reallocWith
    dsimp only
    rw [hb]; dsimp only
    rw [if_neg (by simpa using h0), if_neg hn]
    cases ok
    · exact ⟨h, none, rfl, fun _ _ _ => rfl, rfl, rfl⟩
    · refine ⟨_, _, rfl, others_push_set _ _ _ _, rfl, ?_, _, bytes_push_set _ _ _ _, ?_, ?_, ?_⟩
      · unfold bytes; rw [if_pos h0]
        have hl : p.blk < h.length := by
          have := List.getElem?_eq_some_iff.1 hb; exact this.1
        rw [List.getElem?_append_left (by simpa using hl), List.getElem?_set_self hl]; rfl
      · simp [resized]; omega
      · intro i h1 h2
        unfold resized
        rw [List.getElem?_append_left (by simp; omega), List.getElem?_take_of_lt h1]
      · intro i h1 h2
        unfold resized
        rw [List.getElem?_append_right (by simp; omega)]
        rw [List.getElem?_replicate, if_pos (by simp; omega)]
  · cases hp

/-- **C91: `ReAlloc`** (see `realloc_spec`) -/
theorem C91_realloc {h : Heap} {p : Ptr} {c : List Cell} {n : Nat} (ok : Bool) (hp : bytes h p = some c) (hn : n ≠ 0) :
    ∃ h' r, reAlloc h (some p) n ok = .ok h' r ∧ Others h h' (some p.blk) ∧
      match r with
      | none => ok = false ∧ h' = h
      | some q => ok = true ∧ bytes h' p = none ∧ ∃ d, bytes h' q = some d ∧ d.length = n ∧ ∀ i, i < n → i < c.length → d[i]? = c[i]? := by
  obtain ⟨h', r, e, o, x⟩ := realloc_spec ok none hp hn
  refine ⟨h', r, e, o, ?_⟩
  cases r with
  | none => exact x
  | some q => obtain ⟨a, b, d, e1, e2, e3, _⟩ := x; exact ⟨a, b, d, e1, e2, e3⟩

/-- **C91: `ReAllocAndZero` on Windows** keeps the old bytes and zeroes the new ones. -/
theorem C91_rezero_windows {h : Heap} {p : Ptr} {c : List Cell} {n : Nat} (ok : Bool) (hp : bytes h p = some c) (hn : n ≠ 0) :
    ∃ h' r, reAllocZeroMs h (some p) n ok = .ok h' r ∧ Others h h' (some p.blk) ∧
      match r with
      | none => ok = false ∧ h' = h
      | some q => ok = true ∧ bytes h' p = none ∧ ∃ d, bytes h' q = some d ∧ d.length = n ∧ (∀ i, i < n → i < c.length → d[i]? = c[i]?) ∧ (∀ i, c.length ≤ i → i < n → d[i]? = some (some 0)) :=
  realloc_spec ok (some 0) hp hn

theorem realloc_blk {h h' : Heap} {p q : Ptr} {c : List Cell} {n : Nat} {fill : Cell} (hp : bytes h p = some c) (hn : n ≠ 0) (e : reallocWith h (some p) n fill true = .ok h' (some q)) : q.blk = h.length := by
  unfold reallocWith at e
  dsimp only at e
  split at e
  · split at e
    · cases e
    · first
        | (rw [if_pos rfl] at e; cases e; rfl)
        | (rw [if_neg hn, if_pos rfl] at e; cases e; rfl)
  · cases e

theorem rezero_eq {h : Heap} {p : Ptr} {c : List Cell} {n : Nat} (hp : bytes h p = some c) (hn : n ≠ 0) :
    ∃ h' q, reAllocZero h (some p) n true = .ok h' (some q) ∧ bytes h' q = some (List.replicate n (some 0)) ∧ Others h h' (some p.blk) := by
  obtain ⟨h1, r, e, o, x⟩ := realloc_spec true none hp hn
  cases r with
  | none => cases x.1
  | some q =>
    obtain ⟨_, hd, d, e1, e2, _, _⟩ := x
    unfold reAllocZero; rw [e]; dsimp only
    unfold bytes at e1
    split at e1
    · rename_i h0
      have hb : h1[q.blk]? = some (some d) := by
        cases e : h1[q.blk]? with
        | none => rw [e] at e1; cases e1
        | some x => rw [e] at e1; simp at e1; rw [e1]
      have hl := (List.getElem?_eq_some_iff.1 hb).1
      unfold memset0; rw [hb]; dsimp only
      rw [if_pos (by rw [h0, e2]; omega), h0]
      have hq : q.blk = h.length := realloc_blk hp hn e
      refine ⟨_, q, rfl, ?_, ?_⟩
      · unfold bytes; rw [if_pos h0]
        rw [List.getElem?_set_self hl]
        simp [e2]
      · intro a ha hne
        rw [List.getElem?_set_ne (by omega)]
        exact o a ha hne
    · cases e1

/-- **C91 is false for `ReAllocAndZero` outside Windows:** the whole block is zeroed, so that every old byte that was not zero is lost; for every block and every new size that keeps such a byte. -/
theorem C91_rezero_fails {h : Heap} {p : Ptr} {c : List Cell} {n i : Nat} (hp : bytes h p = some c) (hi : i < n) (hc : i < c.length) (hz : c[i]? ≠ some (some 0)) :
    ∃ h' q d, reAllocZero h (some p) n true = .ok h' (some q) ∧ bytes h' q = some d ∧ d[i]? = some (some 0) ∧ d[i]? ≠ c[i]? := by
  obtain ⟨h', q, e, b, _⟩ := rezero_eq hp (show n ≠ 0 by omega)
  have hd : (List.replicate n (some 0 : Cell))[i]? = some (some 0) := by rw [List.getElem?_replicate, if_pos hi]
  exact ⟨h', q, _, e, b, hd, by rw [hd]; exact fun h => hz h.symm⟩

/-- **C91 (partial): what remains true of it outside Windows:** the size is right, all bytes are zero, other blocks stay; and it is what `_recalloc` gives if the old bytes were zero. -/
theorem C91_rezero_partial {h : Heap} {p : Ptr} {c : List Cell} {n : Nat} (hp : bytes h p = some c) (hn : n ≠ 0) :
    ∃ h' q d, reAllocZero h (some p) n true = .ok h' (some q) ∧ Others h h' (some p.blk) ∧ bytes h' q = some d ∧ d.length = n ∧ (∀ x ∈ d, x = some 0) ∧
      ((∀ x ∈ c, x = some 0) → ∀ i, i < n → i < c.length → d[i]? = c[i]?) := by
  obtain ⟨h', q, e, b, o⟩ := rezero_eq hp hn
  refine ⟨h', q, _, e, o, b, by simp, fun x hx => List.eq_of_mem_replicate hx, fun hz i h1 h2 => ?_⟩
  rw [List.getElem?_replicate, if_pos h1, List.getElem?_eq_getElem h2, hz _ (List.getElem_mem h2)]

/-- **C91 is false for the size zero:** `ReAlloc(p, 0)` returns null, which is how a failure looks, but the block is gone; a caller that keeps the old block after a failure
uses freed memory. -/
theorem C91_realloc_zero_fails {h : Heap} {p : Ptr} {c : List Cell} (ok : Bool) (hp : bytes h p = some c) :
    ∃ h', reAlloc h (some p) 0 ok = .ok h' none ∧ bytes h' p = none ∧ free h' (some p) = .ub := by
  unfold bytes at hp
  split at hp
  · rename_i h0
    have hb : h[p.blk]? = some (some c) := by
      cases e : h[p.blk]? with
      | none => rw [e] at hp; cases hp
      | some x => rw [e] at hp; simp at hp; rw [hp]
    have hl := (List.getElem?_eq_some_iff.1 hb).1
    refine ⟨h.set p.blk none, ?_, ?_, ?_⟩
    · unfold reAlloc reallocWith; dsimp only; rw [hb]; dsimp only; rw [if_neg (by simpa using h0), if_pos rfl]
    · unfold bytes; rw [if_pos h0, List.getElem?_set_self hl]; rfl
    · unfold free; dsimp only; rw [List.getElem?_set_self hl]
  · cases hp

/-! ### objects -/

/-- number of live blocks / of living objects -/
def liveBlocks (h : Heap) : Nat := h.countP (·.isSome)
def living (l : List Obj) : Nat := l.countP (·.alive)

structure Inv (s : St) : Prop where
  /-- a living object has its own live block -/
  live : ∀ (i : Nat) o, s.objs[i]? = some o → o.alive = true → ∃ c, s.heap[o.blk]? = some (some c)
  own : ∀ (i j : Nat) o q, s.objs[i]? = some o → s.objs[j]? = some q → o.blk = q.blk → i = j
  bound : ∀ o ∈ s.objs, o.blk < s.heap.length
  count : liveBlocks s.heap = living s.objs + s.threw
  calls : s.ctors = s.dtors + living s.objs

theorem countP_set {α : Type} (P : α → Bool) : ∀ {l : List α} {i : Nat} {x y : α}, l[i]? = some x → P x = true → P y = false → (l.set i y).countP P + 1 = l.countP P
  | a :: t, 0, x, y, h, hx, hy => by
    simp at h; subst h
    simp [List.countP_cons, hx, hy]
  | a :: t, i + 1, x, y, h, hx, hy => by
    have := countP_set P (l := t) (i := i) (by simpa using h) hx hy
    simp only [List.set_cons_succ, List.countP_cons]
    omega
  | [], i, x, y, h, _, _ => by simp at h

theorem countP_set_same {α : Type} (P : α → Bool) : ∀ {l : List α} {i : Nat} {x y : α}, l[i]? = some x → P x = P y → (l.set i y).countP P = l.countP P
  | a :: t, 0, x, y, h, hx => by
    simp at h; subst h
    simp [List.countP_cons, hx]
  | a :: t, i + 1, x, y, h, hx => by
    have := countP_set_same P (l := t) (i := i) (by simpa using h) hx
    simp only [List.set_cons_succ, List.countP_cons]
    omega
  | [], i, x, y, h, _ => by simp at h

theorem get_set {α : Type} {l : List α} {i j : Nat} {x y : α} (h : (l.set i x)[j]? = some y) : (i = j ∧ y = x) ∨ (i ≠ j ∧ l[j]? = some y) := by
  rw [List.getElem?_set] at h
  split at h
  · rename_i e
    split at h
    · cases h; exact .inl ⟨e, rfl⟩
    · cases h
  · rename_i e; exact .inr ⟨e, h⟩

/-- a new block -/
theorem inv_push {s : St} (I : Inv s) (c : List Cell) (th : Bool) :
    Inv (if th then { s with heap := s.heap ++ [some c], threw := s.threw + 1 } else { s with heap := s.heap ++ [some c], objs := s.objs ++ [{ blk := s.heap.length }], ctors := s.ctors + 1 }) := by
  have hb : ∀ o ∈ s.objs, o.blk < (s.heap ++ [some c]).length := fun o ho => by have := I.bound o ho; simp; omega
  have hlv : ∀ (i : Nat) o, s.objs[i]? = some o → o.alive = true → ∃ d, (s.heap ++ [some c])[o.blk]? = some (some d) := fun i o h a => by
    obtain ⟨d, e⟩ := I.live i o h a
    exact ⟨d, by rw [List.getElem?_append_left (I.bound o (List.mem_of_getElem? h))]; exact e⟩
  have hc : liveBlocks (s.heap ++ [some c]) = liveBlocks s.heap + 1 := by simp [liveBlocks, List.countP_append]
  have I4 := I.count; have I5 := I.calls
  cases th with
  | true =>
    rw [if_pos rfl]
    exact ⟨hlv, I.own, hb, by simp only [hc]; omega, I5⟩
  | false =>
    rw [if_neg (by decide)]
    have hlo : living (s.objs ++ [{ blk := s.heap.length }]) = living s.objs + 1 := by simp [living, List.countP_append]
    refine ⟨?_, ?_, ?_, by simp only [hc, hlo]; omega, by simp only [hlo]; omega⟩
    · intro i o h a
      by_cases hi : i < s.objs.length
      · rw [List.getElem?_append_left hi] at h; exact hlv i o h a
      · rw [List.getElem?_append_right (by omega)] at h
        have := List.mem_of_getElem? h; simp at this; subst this
        exact ⟨c, by simp⟩
    · intro i j o q ho hq e
      have key : ∀ {k : Nat} {x : Obj}, (s.objs ++ [{ blk := s.heap.length }])[k]? = some x → (k < s.objs.length ∧ s.objs[k]? = some x) ∨ (k = s.objs.length ∧ x = { blk := s.heap.length }) := by
        intro k x h
        by_cases hk : k < s.objs.length
        · rw [List.getElem?_append_left hk] at h; exact .inl ⟨hk, h⟩
        · rw [List.getElem?_append_right (by omega)] at h
          right
          have hx := List.mem_of_getElem? h; simp at hx
          have := (List.getElem?_eq_some_iff.1 h).1; simp at this
          exact ⟨by omega, hx⟩
      rcases key ho with ⟨_, h1⟩ | ⟨h1, rfl⟩ <;> rcases key hq with ⟨_, h2⟩ | ⟨h2, rfl⟩
      · exact I.own i j o q h1 h2 e
      · have := I.bound o (List.mem_of_getElem? h1); simp at e; omega
      · have := I.bound q (List.mem_of_getElem? h2); simp at e; omega
      · omega
    · intro o ho
      rcases List.mem_append.1 ho with h | h
      · exact hb o h
      · simp at h; subst h; simp

theorem inv_step {s t : St} {op : Op} (I : Inv s) (hv : Valid s op) (hf : First s op) (hs : (step s op).st = some t) : Inv t := by
  cases op with
  | new n z ok th =>
    cases ok with
    | false =>
      have : step s (.new n z false th) = .null { s with heap := s.heap } := by cases z <;> rfl
      rw [this] at hs; cases hs; exact I
    | true =>
      have := inv_push I (List.replicate n (if z then some 0 else none)) th
      cases z <;> cases th <;> (simp only [step, new, allocZero, alloc, calloc, malloc, if_true, if_false, Bool.false_eq_true, Out.st, Option.some.injEq] at hs; subst hs; exact this)
  | upcast i a =>
    obtain ⟨o, ho⟩ := hv
    simp only [step, upcast, ho, Out.st, Option.some.injEq] at hs
    subst hs
    have g : ∀ {j : Nat} {x : Obj}, (s.objs.set i { o with adj := o.adj + a })[j]? = some x → ∃ y, s.objs[j]? = some y ∧ y.blk = x.blk ∧ y.alive = x.alive := by
      intro j x h
      rcases get_set h with ⟨rfl, rfl⟩ | ⟨_, h⟩
      · exact ⟨o, ho, rfl, rfl⟩
      · exact ⟨x, h, rfl, rfl⟩
    have hl : living (s.objs.set i { o with adj := o.adj + a }) = living s.objs := countP_set_same _ ho rfl
    refine ⟨?_, ?_, ?_, ?_, ?_⟩
    · intro j x h al
      obtain ⟨y, h1, h2, h3⟩ := g h
      rw [← h2]; exact I.live j y h1 (h3.trans al)
    · intro j k x y hx hy e
      obtain ⟨x', h1, h2, _⟩ := g hx
      obtain ⟨y', h3, h4, _⟩ := g hy
      exact I.own j k x' y' h1 h3 (by rw [h2, h4]; exact e)
    · intro x hx
      obtain ⟨j, hj⟩ := List.getElem?_of_mem hx
      obtain ⟨y, h1, h2, _⟩ := g hj
      rw [← h2]; exact I.bound y (List.mem_of_getElem? h1)
    · show liveBlocks s.heap = living _ + s.threw
      rw [hl]; exact I.count
    · show s.ctors = s.dtors + living _
      rw [hl]; exact I.calls
  | delete i =>
    obtain ⟨o, ho, al⟩ := hv
    obtain ⟨c, hc⟩ := I.live i o ho al
    have hfr : free s.heap (some ⟨o.blk, o.adj⟩) = .ok (s.heap.set o.blk none) () := by
      unfold free; dsimp only; rw [hc]; dsimp only; rw [if_pos (hf o ho)]
    simp only [step, delete, ho, al, Bool.true_eq_false, if_false, hfr, Out.st, Option.some.injEq] at hs
    subst hs
    have hbl := (List.getElem?_eq_some_iff.1 hc).1
    have e1 : liveBlocks (s.heap.set o.blk none) + 1 = liveBlocks s.heap := countP_set _ hc rfl rfl
    have e2 : living (s.objs.set i { o with alive := false }) + 1 = living s.objs := countP_set _ ho al rfl
    have I4 := I.count; have I5 := I.calls
    have g : ∀ {j : Nat} {x : Obj}, (s.objs.set i { o with alive := false })[j]? = some x → ∃ y, s.objs[j]? = some y ∧ y.blk = x.blk ∧ (x.alive = true → y = x ∧ j ≠ i) := by
      intro j x h
      rcases get_set h with ⟨rfl, rfl⟩ | ⟨hne, h⟩
      · exact ⟨o, ho, rfl, fun h => by cases h⟩
      · exact ⟨x, h, rfl, fun _ => ⟨rfl, fun e => hne e.symm⟩⟩
    have e3 : liveBlocks (s.heap.set o.blk none) = living (s.objs.set i { o with alive := false }) + s.threw := by omega
    have e4 : s.ctors = s.dtors + 1 + living (s.objs.set i { o with alive := false }) := by omega
    refine ⟨?_, ?_, ?_, e3, e4⟩
    · intro j x h a
      obtain ⟨y, h1, h2, h3⟩ := g h
      obtain ⟨rfl, hne⟩ := h3 a
      obtain ⟨d, hd⟩ := I.live j y h1 a
      refine ⟨d, ?_⟩
      show (s.heap.set o.blk none)[y.blk]? = _
      rw [List.getElem?_set_ne (fun e => hne (I.own j i y o h1 ho e.symm))]; exact hd
    · intro j k x y hx hy e
      obtain ⟨x', h1, h2, _⟩ := g hx
      obtain ⟨y', h3, h4, _⟩ := g hy
      exact I.own j k x' y' h1 h3 (by rw [h2, h4]; exact e)
    · intro x hx
      obtain ⟨j, hj⟩ := List.getElem?_of_mem hx
      obtain ⟨y, h1, h2, _⟩ := g hj
      rw [← h2, List.length_set]; exact I.bound y (List.mem_of_getElem? h1)

theorem inv_run {s t : St} (r : Run s t) (I : Inv s) : Inv t := by
  induction r with
  | nil => exact I
  | snoc _ hv hf hs ih => exact inv_step ih hv hf hs

theorem inv_init : Inv {} := ⟨by simp, by simp, by simp, rfl, rfl⟩

/-- **C91: `New`, `NewAndZero` and `Delete` construct and destroy each object exactly once and never go wrong** in any history of valid calls; null is returned only if memory was refused. -/
theorem C91_objects_partial {s : St} (r : Run {} s) (op : Op) (hv : Valid s op) (hf : First s op) :
    s.ctors = s.dtors + living s.objs ∧ (∀ t, step s op ≠ .null t ∨ ∃ n z th, op = .new n z false th) ∧ ∃ t, (step s op).st = some t ∧ Run {} t := by
  have I := inv_run r inv_init
  have hst : ∃ t, (step s op).st = some t := by
    cases op with
    | new n z ok th => cases ok <;> cases z <;> cases th <;> exact ⟨_, rfl⟩
    | upcast i a => obtain ⟨o, ho⟩ := hv; exact ⟨_, by simp only [step, upcast, ho]; rfl⟩
    | delete i =>
      obtain ⟨o, ho, al⟩ := hv
      obtain ⟨c, hc⟩ := I.live i o ho al
      exact ⟨_, by simp only [step, delete, ho, al, Bool.true_eq_false, if_false, free, hc, hf o ho, if_true]; rfl⟩
  obtain ⟨t, ht⟩ := hst
  refine ⟨I.calls, ?_, t, ht, .snoc r hv hf ht⟩
  intro u
  cases op with
  | new n z ok th =>
    cases ok with
    | false => exact .inr ⟨n, z, th, rfl⟩
    | true => left; cases z <;> cases th <;> exact fun e => by cases e
  | upcast i a => obtain ⟨o, ho⟩ := hv; left; simp only [step, upcast, ho]; exact fun e => by cases e
  | delete i =>
    left
    simp only [step, delete]
    split
    · split
      · exact fun e => by cases e
      · split <;> exact fun e => by cases e
    · exact fun e => by cases e

/-- **C91: no leak if no constructor threw**: once every object is deleted, no block is left. -/
theorem C91_no_leak_partial {s : St} (r : Run {} s) (ht : s.threw = 0) (hd : ∀ o ∈ s.objs, o.alive = false) : ∀ (a : Nat) (c : Option (List Cell)), s.heap[a]? = some c → c = none := by
  have I := inv_run r inv_init
  have h0 : living s.objs = 0 := by
    unfold living; rw [List.countP_eq_zero]; intro o ho; simp [hd o ho]
  have hc : liveBlocks s.heap = 0 := by rw [I.count, h0, ht]
  intro a c h
  unfold liveBlocks at hc
  rw [List.countP_eq_zero] at hc
  have := hc c (List.mem_of_getElem? h)
  cases c with
  | none => rfl
  | some _ => simp at this

/-- **C91 is false for constructors that throw:** `New` has no `try` (61-63) and placement new frees nothing: every such call leaves a block behind for ever; in every history the number of leaked blocks is the number of
exceptions. -/
theorem C91_throw_fails {s : St} (r : Run {} s) (hd : ∀ o ∈ s.objs, o.alive = false) : liveBlocks s.heap = s.threw := by
  have I := inv_run r inv_init
  have h0 : living s.objs = 0 := by
    unfold living; rw [List.countP_eq_zero]; intro o ho; simp [hd o ho]
  rw [I.count, h0]; omega

/-- **C91 is false for `Delete` through a base class that is not the first:** `Free` gets a pointer into the block (86), where a `delete` expression would use the pointer to the whole object. In every history. -/
theorem C91_base_fails {s : St} {i : Nat} {o : Obj} (ho : s.objs[i]? = some o) (ha : 0 < o.adj) : (step s (.delete i)).st = none := by
  simp only [step, delete, ho]
  split
  · rfl
  · have hfr : free s.heap (some ⟨o.blk, o.adj⟩) = .ub := by
      unfold free; dsimp only
      split
      · exact if_neg (by omega)
      · rfl
    rw [hfr]; rfl

/-! ### a concrete case -/

/-- two objects, one refused request, one constructor that throws; both objects deleted: one block leaked -/
theorem C91_example : (∃ s, Run {} s ∧ s.threw = 1 ∧ s.ctors = 2 ∧ s.dtors = 2 ∧ s.heap = [none, some [none], none] ∧ ∀ o ∈ s.objs, o.alive = false) ∧
    bytes [some [some 5, some 6]] ⟨0, 0⟩ = some [some 5, some 6] ∧
    reAllocZeroMs [some [some 5, some 6]] (some ⟨0, 0⟩) 3 true = .ok [none, some [some 5, some 6, some 0]] (some ⟨1, 0⟩) ∧
    reAllocZero [some [some 5, some 6]] (some ⟨0, 0⟩) 3 true = .ok [none, some [some 0, some 0, some 0]] (some ⟨1, 0⟩) ∧
    (∃ s t, Run {} s ∧ step s (.upcast 0 8) = .ret t ∧ (∃ o, t.objs[0]? = some o ∧ 0 < o.adj) ∧ step t (.delete 0) = .ub) := by
  refine ⟨⟨⟨[none, some [none], none], [⟨0, 0, false⟩, ⟨2, 0, false⟩], 2, 2, 1⟩, ?_, rfl, rfl, rfl, rfl, by simp⟩, rfl, by decide, by decide, ?_⟩
  · have h1 : Run {} ⟨[some [none, none]], [⟨0, 0, true⟩], 1, 0, 0⟩ := .snoc (.nil _) (op := .new 2 false true false) trivial trivial rfl
    have h2 : Run {} ⟨[some [none, none]], [⟨0, 0, true⟩], 1, 0, 0⟩ := .snoc h1 (op := .new 2 false false false) trivial trivial rfl
    have h3 : Run {} ⟨[some [none, none], some [none]], [⟨0, 0, true⟩], 1, 0, 1⟩ := .snoc h2 (op := .new 1 false true true) trivial trivial rfl
    have h4 : Run {} ⟨[some [none, none], some [none], some [some 0]], [⟨0, 0, true⟩, ⟨2, 0, true⟩], 2, 0, 1⟩ := .snoc h3 (op := .new 1 true true false) trivial trivial rfl
    have h5 : Run {} ⟨[none, some [none], some [some 0]], [⟨0, 0, false⟩, ⟨2, 0, true⟩], 2, 1, 1⟩ := .snoc h4 (op := .delete 0) ⟨_, rfl, rfl⟩ (fun o e => by cases e; rfl) rfl
    exact .snoc h5 (op := .delete 1) ⟨_, rfl, rfl⟩ (fun o e => by cases e; rfl) rfl
  · exact ⟨⟨[some [none, none]], [⟨0, 0, true⟩], 1, 0, 0⟩, ⟨[some [none, none]], [⟨0, 8, true⟩], 1, 0, 0⟩, .snoc (.nil _) (op := .new 2 false true false) trivial trivial rfl, rfl, ⟨_, rfl, by decide⟩, rfl⟩

end Verif.Alloc
