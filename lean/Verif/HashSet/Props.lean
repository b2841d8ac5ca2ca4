import Verif.HashSet.Model
/-!
# C25 – the hash set is a set
-/
namespace Verif.HashSet

/-- **Specification.** Membership after a history: decided by the last successful operation on the key. -/
def Mem.after : List (Op × Res) → Nat → Prop
  | [], _ => False
  | (op, r) :: older, k =>   -- newest first
    match op, r with
    | .insert k' _, .ok => k = k' ∨ Mem.after older k
    | .remove k', .ok => k ≠ k' ∧ Mem.after older k
    | .pop, .key k' => k ≠ k' ∧ Mem.after older k
    | _, _ => Mem.after older k

/-- is the key in the set after history `h` (oldest first)? -/
def Has (h : List (Op × Res)) (k : Nat) : Prop := Mem.after h.reverse k

/-- what a call may report, given the members before it -/
def Correct (S : Nat → Prop) : Op → Res → Prop
  | .insert k al, r => (S k → r = .false_) ∧ (¬ S k → al.isSome → r = .ok) ∧ (¬ S k → al = none → r = .oom)
  | .remove k, r => (S k → r = .ok) ∧ (¬ S k → r = .false_)
  | .pop, r => ∃ k, r = .key k ∧ ((∃ x, S x) → S k) ∧ ((¬ ∃ x, S x) → k = 0)

/-! ## Representation -/

def Chain (m : Mem) : Option Nat → List (Nat × Nat) → Prop
  | p, [] => p = none
  | p, (a, k) :: l => p = some a ∧ ∃ nx, m a = some ⟨nx, k⟩ ∧ Chain m nx l

def addrs (l : List (Nat × Nat)) : List Nat := l.map (·.1)
def keys (l : List (Nat × Nat)) : List Nat := l.map (·.2)

/-- `L i` are the (address, key) pairs of bucket `i`; `leak` the entries lost by `Pop` -/
structure Inv (n : Nat) (s : St) (L : Nat → List (Nat × Nat)) (leak : List Nat) : Prop where
  chain : ∀ i, i < n → Chain s.mem (s.buckets i) (L i)
  out : ∀ i, n ≤ i → L i = []
  nodup : ∀ i, (addrs (L i)).Nodup
  disj : ∀ i j, i ≠ j → ∀ a, a ∈ addrs (L i) → a ∉ addrs (L j)
  home : ∀ i, ∀ k ∈ keys (L i), k % n = i
  kdup : ∀ i, (keys (L i)).Nodup
  len : ∀ i, (L i).length ≤ s.allocs
  live : ∀ a, s.mem a ≠ none ↔ (a ∈ leak ∨ ∃ i, a ∈ addrs (L i))
  lk : ∀ a ∈ leak, ∀ i, a ∉ addrs (L i)

theorem chain_frame {m : Mem} {p : Option Nat} {l : List (Nat × Nat)} (h : Chain m p l) {a : Nat} (ha : a ∉ addrs l) (v : Option Entry) : Chain (upd m a v) p l := by
  induction l generalizing p with
  | nil => exact h
  | cons x l ih =>
    obtain ⟨b, k⟩ := x
    simp only [addrs, List.map_cons, List.mem_cons, not_or] at ha
    obtain ⟨h1, nx, h2, h3⟩ := h
    refine ⟨h1, nx, ?_, ih h3 ha.2⟩
    simp only [upd]
    rw [if_neg (fun e => ha.1 e.symm)]
    exact h2

theorem search_spec {m : Mem} {key : Nat} {l : List (Nat × Nat)} {p : Option Nat} (h : Chain m p l) {fuel : Nat} (hf : l.length ≤ fuel) :
    search m key fuel p = some (decide (key ∈ keys l)) := by
  induction l generalizing p fuel with
  | nil => simp only [Chain] at h; subst h; simp [search, keys]
  | cons x l ih =>
    obtain ⟨a, k⟩ := x
    obtain ⟨h1, nx, h2, h3⟩ := h
    subst h1
    cases fuel with
    | zero => simp at hf
    | succ fuel =>
      simp only [search, h2]
      by_cases hk : k = key
      · simp [hk, keys]
      · rw [if_neg hk, ih h3 (by simpa using hf)]
        have hk' : ¬ key = k := fun e => hk e.symm
        have : key ∈ keys ((a, k) :: l) ↔ key ∈ keys l := by simp only [keys, List.map_cons, List.mem_cons, hk', false_or]
        exact congrArg some (decide_eq_decide.2 this.symm)

theorem mem_addrs {l : List (Nat × Nat)} {a : Nat} : a ∈ addrs l ↔ ∃ k, (a, k) ∈ l := by simp [addrs]

theorem chain_live {m : Mem} {p : Option Nat} {l : List (Nat × Nat)} (h : Chain m p l) : ∀ a ∈ addrs l, m a ≠ none := by
  induction l generalizing p with
  | nil => simp [addrs]
  | cons x l ih =>
    obtain ⟨b, k⟩ := x
    obtain ⟨h1, nx, h2, h3⟩ := h
    intro a ha
    simp only [addrs, List.map_cons, List.mem_cons] at ha
    rcases ha with rfl | ha
    · rw [h2]; simp
    · exact ih h3 a ha

/-- the members of the representation -/
def Sem (L : Nat → List (Nat × Nat)) (k : Nat) : Prop := ∃ i, k ∈ keys (L i)

theorem sem_home {n : Nat} {s : St} {L : Nat → List (Nat × Nat)} {lk : List Nat} (h : Inv n s L lk) (k : Nat) : Sem L k ↔ k ∈ keys (L (k % n)) := by
  constructor
  · rintro ⟨i, hi⟩
    have := h.home i k hi
    rw [this]; exact hi
  · intro hk; exact ⟨_, hk⟩

theorem insert_spec {n : Nat} (hn : 0 < n) {s : St} {L : Nat → List (Nat × Nat)} {lk : List Nat} (h : Inv n s L lk) (key : Nat) (al : Option Nat)
    (hal : Allowed s (.insert key al)) :
    ∃ s' r L', insert n s key al = some (s', r) ∧ Correct (Sem L) (.insert key al) r ∧ Inv n s' L' lk ∧
      (∀ k, Sem L' k ↔ if r = .ok then k = key ∨ Sem L k else Sem L k) := by
  have hi : key % n < n := Nat.mod_lt _ hn
  have hs := search_spec (key := key) (h.chain _ hi) (h.len _)
  have hsem := sem_home h key
  by_cases hk : key ∈ keys (L (key % n))
  · refine ⟨s, .false_, L, by simp [insert, hs, hk], ?_, h, by simp⟩
    simp [Correct, hsem, hk]
  · cases al with
    | none =>
      refine ⟨s, .oom, L, by simp [insert, hs, hk], ?_, h, by simp⟩
      simp [Correct, hsem, hk]
    | some a =>
      simp only [Allowed] at hal
      have hfresh : ∀ i, a ∉ addrs (L i) := fun i hc => (h.live a).2 (.inr ⟨i, hc⟩) hal
      have hlk : a ∉ lk := fun hc => (h.live a).2 (.inl hc) hal
      refine ⟨_, .ok, upd L (key % n) ((a, key) :: L (key % n)), by simp only [insert, hs, hk, decide_false]; rfl, ?_, ?_, ?_⟩
      · simp [Correct, hsem, hk]
      · constructor
        · intro i hi'
          simp only [upd]
          by_cases e : i = key % n
          · subst e
            simp only [if_true]
            refine ⟨rfl, s.buckets (key % n), by simp [upd], ?_⟩
            exact chain_frame (h.chain _ hi) (hfresh _) _
          · simp only [e, if_false]
            exact chain_frame (h.chain _ hi') (hfresh _) _
        · intro i hi'
          have : i ≠ key % n := by omega
          simp [upd, this, h.out i hi']
        · intro i
          simp only [upd]
          split
          · simp only [addrs, List.map_cons, List.nodup_cons]
            exact ⟨hfresh _, h.nodup _⟩
          · exact h.nodup i
        · intro i j hij b hb
          simp only [upd] at hb ⊢
          by_cases ei : i = key % n
          · have ej : j ≠ key % n := by omega
            simp only [ei, if_true, addrs, List.map_cons, List.mem_cons] at hb
            simp only [ej, if_false]
            rcases hb with rfl | hb
            · exact hfresh _
            · exact h.disj _ _ (by omega) b hb
          · simp only [ei, if_false] at hb
            by_cases ej : j = key % n
            · simp only [ej, if_true, addrs, List.map_cons, List.mem_cons, not_or]
              refine ⟨fun e => hfresh i (e ▸ hb), h.disj _ _ (by omega) b hb⟩
            · simp only [ej, if_false]
              exact h.disj _ _ hij b hb
        · intro i k hk'
          simp only [upd] at hk'
          split at hk'
          · rename_i e
            simp only [keys, List.map_cons, List.mem_cons] at hk'
            rcases hk' with rfl | hk'
            · exact e.symm
            · rw [e]; exact h.home _ k hk'
          · exact h.home i k hk'
        · intro i
          simp only [upd]
          split
          · simp only [keys, List.map_cons, List.nodup_cons]
            exact ⟨hk, h.kdup _⟩
          · exact h.kdup i
        · intro i
          simp only [upd]
          split
          · simp only [List.length_cons]; have := h.len (key % n); omega
          · have := h.len i; omega
        · intro b
          simp only [upd]
          by_cases eb : b = a
          · subst eb
            simp only [if_true, ne_eq, reduceCtorEq, not_false_eq_true, true_iff]
            exact .inr ⟨key % n, by simp [addrs]⟩
          · simp only [eb, if_false]
            rw [h.live b]
            constructor
            · rintro (hl | ⟨i, hi'⟩)
              · exact .inl hl
              · refine .inr ⟨i, ?_⟩
                split
                · rename_i e; subst e; simp only [addrs, List.map_cons, List.mem_cons]; exact .inr hi'
                · exact hi'
            · rintro (hl | ⟨i, hi'⟩)
              · exact .inl hl
              · refine .inr ⟨i, ?_⟩
                split at hi'
                · rename_i e; subst e; simp only [addrs, List.map_cons, List.mem_cons] at hi'; exact hi'.resolve_left eb
                · exact hi'
        · intro b hb i
          simp only [upd]
          split
          · rename_i e
            simp only [addrs, List.map_cons, List.mem_cons, not_or]
            exact ⟨fun e' => hlk (e' ▸ hb), h.lk b hb _⟩
          · exact h.lk b hb i
      · intro k
        simp only [if_true]
        constructor
        · rintro ⟨i, hi'⟩
          simp only [upd] at hi'
          split at hi'
          · simp only [keys, List.map_cons, List.mem_cons] at hi'
            rcases hi' with rfl | hi'
            · exact .inl rfl
            · exact .inr ⟨_, hi'⟩
          · exact .inr ⟨i, hi'⟩
        · rintro (rfl | ⟨i, hi'⟩)
          · exact ⟨k % n, by simp [upd, keys]⟩
          · refine ⟨i, ?_⟩
            simp only [upd]
            split
            · rename_i e; subst e; simp only [keys, List.map_cons, List.mem_cons]; exact .inr hi'
            · exact hi'

/-- cutting an entry out of one bucket keeps the representation -/
theorem inv_cut {n : Nat} {s : St} {L : Nat → List (Nat × Nat)} {lk : List Nat} (h : Inv n s L lk) {i a key : Nat} {pre post : List (Nat × Nat)}
    (hL : L i = pre ++ (a, key) :: post) (hi : i < n) {s' : St} {lk' : List Nat} (hal : s'.allocs = s.allocs)
    (hchain : Chain s'.mem (s'.buckets i) (pre ++ post)) (hother : ∀ j, j ≠ i → j < n → Chain s'.mem (s'.buckets j) (L j))
    (hlive : ∀ b, s'.mem b ≠ none ↔ (b ∈ lk' ∨ (b ≠ a ∧ ∃ j, b ∈ addrs (L j)))) (hlk : ∀ b ∈ lk', b = a ∨ ∀ j, b ∉ addrs (L j)) :
    Inv n s' (upd L i (pre ++ post)) lk' ∧ ∀ k, Sem (upd L i (pre ++ post)) k ↔ (k ≠ key ∧ Sem L k) := by
  have sub : ∀ b, b ∈ addrs (pre ++ post) → b ∈ addrs (L i) := by
    intro b hb; rw [hL]; simp [addrs] at hb ⊢; grind
  have nd := h.nodup i
  have kd := h.kdup i
  rw [hL] at nd kd
  have ha : a ∉ addrs (pre ++ post) := by
    simp only [addrs, List.map_append, List.map_cons] at nd ⊢
    rw [List.nodup_append] at nd
    grind
  have hkk : key ∉ keys (pre ++ post) := by
    simp only [keys, List.map_append, List.map_cons] at kd ⊢
    rw [List.nodup_append] at kd
    grind
  have hai : a ∈ addrs (L i) := by rw [hL]; simp [addrs]
  have hki : key ∈ keys (L i) := by rw [hL]; simp [keys]
  have ksub : ∀ k, k ∈ keys (pre ++ post) ↔ (k ≠ key ∧ k ∈ keys (L i)) := by
    intro k; rw [hL]; simp only [keys, List.map_append, List.map_cons, List.mem_append, List.mem_cons] at hkk ⊢
    constructor
    · intro hk; exact ⟨fun e => hkk (e ▸ hk), by grind⟩
    · grind
  have asub : ∀ b, b ∈ addrs (pre ++ post) ↔ (b ≠ a ∧ b ∈ addrs (L i)) := by
    intro b; rw [hL]; simp only [addrs, List.map_append, List.map_cons, List.mem_append, List.mem_cons] at ha ⊢
    constructor
    · intro hk; exact ⟨fun e => ha (e ▸ hk), by grind⟩
    · grind
  have aother : ∀ j, j ≠ i → a ∉ addrs (L j) := fun j hj => h.disj i j (Ne.symm hj) a hai
  refine ⟨?_, ?_⟩
  · constructor
    · intro j hj
      by_cases e : j = i
      · subst e; simp only [upd, if_true]; exact hchain
      · simp only [upd, e, if_false]; exact hother j e hj
    · intro j hj
      have : j ≠ i := by omega
      simp [upd, this, h.out j hj]
    · intro j
      simp only [upd]
      split
      · refine List.Nodup.sublist ?_ nd
        simp only [addrs]
        exact List.Sublist.map _ (List.Sublist.append_left (List.sublist_cons_self _ _) _)
      · exact h.nodup j
    · intro j k hjk b hb
      simp only [upd] at hb ⊢
      by_cases ej : j = i
      · have ek : k ≠ i := by omega
        simp only [ej, if_true] at hb
        simp only [ek, if_false]
        exact h.disj i k (by omega) b (sub b hb)
      · simp only [ej, if_false] at hb
        by_cases ek : k = i
        · simp only [ek, if_true]
          exact fun hc => h.disj j i ej b hb (sub b hc)
        · simp only [ek, if_false]
          exact h.disj j k hjk b hb
    · intro j k hk
      simp only [upd] at hk
      split at hk
      · rename_i e; rw [e]; exact h.home i k ((ksub k).1 hk).2
      · exact h.home j k hk
    · intro j
      simp only [upd]
      split
      · refine List.Nodup.sublist ?_ kd
        simp only [keys]
        exact List.Sublist.map _ (List.Sublist.append_left (List.sublist_cons_self _ _) _)
      · exact h.kdup j
    · intro j
      simp only [upd]
      split
      · have := h.len i
        rw [hL] at this
        simp at this ⊢
        omega
      · rw [hal]; exact h.len j
    · intro b
      rw [hlive b]
      constructor
      · rintro (hb | ⟨hb, j, hj⟩)
        · exact .inl hb
        · refine .inr ⟨j, ?_⟩
          simp only [upd]
          split
          · rename_i e; subst e; exact (asub b).2 ⟨hb, hj⟩
          · exact hj
      · rintro (hb | ⟨j, hj⟩)
        · exact .inl hb
        · refine .inr ?_
          simp only [upd] at hj
          split at hj
          · exact ⟨((asub b).1 hj).1, i, ((asub b).1 hj).2⟩
          · rename_i e
            exact ⟨fun eb => aother j e (eb ▸ hj), j, hj⟩
    · intro b hb j
      simp only [upd]
      rcases hlk b hb with rfl | hn'
      · split
        · exact ha
        · rename_i e; exact aother j e
      · split
        · exact fun hc => hn' i (sub b hc)
        · exact hn' j
  · intro k
    constructor
    · rintro ⟨j, hj⟩
      simp only [upd] at hj
      split at hj
      · exact ⟨((ksub k).1 hj).1, i, ((ksub k).1 hj).2⟩
      · rename_i e
        refine ⟨fun ek => e ?_, j, hj⟩
        have h1 := h.home j k hj
        have h2 := h.home i key hki
        rw [ek] at h1; omega
    · rintro ⟨hk, j, hj⟩
      refine ⟨j, ?_⟩
      simp only [upd]
      split
      · rename_i e; subst e; exact (ksub k).2 ⟨hk, hj⟩
      · exact hj

theorem chain_snoc {m : Mem} {p : Option Nat} {pre : List (Nat × Nat)} {l k a ka : Nat} {post : List (Nat × Nat)} {nx : Option Nat}
    (h : Chain m p (pre ++ (l, k) :: (a, ka) :: post)) (hnd : (addrs (pre ++ (l, k) :: (a, ka) :: post)).Nodup) (hm : m a = some ⟨nx, ka⟩) :
    m l = some ⟨some a, k⟩ ∧ Chain (upd (upd m l (some ⟨nx, k⟩)) a none) p (pre ++ (l, k) :: post) := by
  induction pre generalizing p with
  | nil =>
    obtain ⟨h1, n1, h2, h3, n2, h4, h5⟩ := h
    simp only [addrs, List.nil_append, List.map_cons, List.nodup_cons, List.mem_cons, not_or] at hnd
    have hn2 : n2 = nx := by rw [h4] at hm; simpa using hm
    subst hn2
    subst h3
    refine ⟨h2, h1, n2, ?_, ?_⟩
    · simp only [upd]
      rw [if_neg hnd.1.1]; simp
    · exact chain_frame (chain_frame h5 hnd.1.2 _) hnd.2.1 _
  | cons x pre ih =>
    obtain ⟨b, kb⟩ := x
    obtain ⟨h1, n1, h2, h3⟩ := h
    simp only [addrs, List.cons_append, List.map_cons, List.nodup_cons] at hnd
    obtain ⟨i1, i2⟩ := ih h3 hnd.2
    refine ⟨i1, h1, n1, ?_, i2⟩
    simp only [List.map_append, List.map_cons, List.mem_append, List.mem_cons, not_or] at hnd
    simp only [upd]
    rw [if_neg hnd.1.2.2.1, if_neg hnd.1.2.1]
    exact h2

/-- loop invariant of `Remove` -/
theorem removeLoop_spec {n : Nat} {s : St} {L : Nat → List (Nat × Nat)} {lk : List Nat} (h : Inv n s L lk) {i key : Nat} (hi : i < n)
    (pre rest : List (Nat × Nat)) (hL : L i = pre ++ rest) (hpre : key ∉ keys pre) (last p : Option Nat) (hlast : last = (pre.getLast?).map (·.1))
    (hp : Chain s.mem p rest) (fuel : Nat) (hf : rest.length ≤ fuel) :
    ∃ s' r L', removeLoop s i key fuel last p = some (s', r) ∧ (key ∈ keys rest → r = .ok) ∧ (key ∉ keys rest → r = .false_) ∧ Inv n s' L' lk ∧
      (∀ k, Sem L' k ↔ if r = .ok then k ≠ key ∧ Sem L k else Sem L k) := by
  induction rest generalizing pre last p fuel with
  | nil =>
    simp only [Chain] at hp
    subst hp
    exact ⟨s, .false_, L, by simp [removeLoop], by simp [keys], by simp, h, by simp⟩
  | cons x rest ih =>
    obtain ⟨a, k⟩ := x
    obtain ⟨h1, nx, h2, h3⟩ := hp
    subst h1
    cases fuel with
    | zero => simp at hf
    | succ fuel =>
      simp only [removeLoop, h2]
      by_cases hk : k = key
      · subst hk
        rw [if_pos rfl]
        have hai : a ∈ addrs (L i) := by rw [hL]; simp [addrs]
        have aother : ∀ j, j ≠ i → a ∉ addrs (L j) := fun j hj => h.disj i j (Ne.symm hj) a hai
        have nolk : a ∉ lk := fun hc => h.lk a hc i hai
        rcases List.eq_nil_or_concat pre with rfl | ⟨pre', ⟨l, kl⟩, rfl⟩
        · simp at hlast
          subst hlast
          have hnd := h.nodup i
          rw [hL] at hnd
          simp only [List.nil_append, addrs, List.map_cons, List.nodup_cons] at hnd
          obtain ⟨i1, i2⟩ := inv_cut h hL hi (s' := { s with buckets := upd s.buckets i nx, mem := upd s.mem a none }) (lk' := lk) rfl
            (by simp only [List.nil_append, upd, if_true]; exact chain_frame h3 hnd.1 none)
            (fun j hj hjn => by simp only [upd, hj, if_false]; exact chain_frame (h.chain j hjn) (aother j hj) none)
            (fun b => by
              simp only [upd]
              by_cases eb : b = a
              · subst eb; simp [nolk]
              · simp only [eb, if_false]; rw [h.live b]; simp [eb])
            (fun b hb => .inr (h.lk b hb))
          exact ⟨_, .ok, _, rfl, by simp, by simp [keys], i1, by simpa using i2⟩
        · simp only [List.concat_eq_append, List.getLast?_append, List.getLast?_singleton, Option.or_some, Option.map_some] at hlast
          simp at hlast
          subst hlast
          have hL' : L i = pre' ++ (l, kl) :: (a, k) :: rest := by rw [hL]; simp
          have hnd := h.nodup i
          have hch := h.chain i hi
          rw [hL'] at hnd hch
          obtain ⟨c1, c2⟩ := chain_snoc hch hnd h2
          simp only [c1]
          have hli : l ∈ addrs (L i) := by rw [hL']; simp [addrs]
          have lother : ∀ j, j ≠ i → l ∉ addrs (L j) := fun j hj => h.disj i j (Ne.symm hj) l hli
          have hla : l ≠ a := by
            intro e
            simp only [addrs, List.map_append, List.map_cons] at hnd
            rw [List.nodup_append] at hnd
            have := hnd.2.1
            simp only [List.nodup_cons, List.mem_cons, not_or] at this
            exact this.1.1 e
          obtain ⟨i1, i2⟩ := inv_cut h hL hi (s' := { s with mem := upd (upd s.mem l (some ⟨nx, kl⟩)) a none }) (lk' := lk) rfl
            (by simpa using c2)
            (fun j hj hjn => chain_frame (chain_frame (h.chain j hjn) (lother j hj) _) (aother j hj) none)
            (fun b => by
              simp only [upd]
              by_cases eb : b = a
              · subst eb; simp [nolk]
              · simp only [eb, if_false]
                by_cases el : b = l
                · subst el
                  have := (h.live b).1 (by rw [c1]; simp)
                  simp [hla]
                  exact .inr ⟨i, hli⟩
                · simp only [el, if_false]; rw [h.live b]; simp [eb])
            (fun b hb => .inr (h.lk b hb))
          exact ⟨_, .ok, _, rfl, by simp, by simp [keys], i1, by simpa using i2⟩
      · rw [if_neg hk]
        obtain ⟨s', r, L', e1, e2, e3, e4, e5⟩ := ih (pre ++ [(a, k)]) (by rw [hL]; simp) (by simp [keys] at hpre ⊢; exact ⟨hpre, fun e => hk e.symm⟩)
          (some a) nx (by simp) h3 fuel (by simpa using hf)
        refine ⟨s', r, L', e1, ?_, ?_, e4, e5⟩
        · intro hm
          simp only [keys, List.map_cons, List.mem_cons] at hm
          exact e2 (hm.resolve_left fun e => hk e.symm)
        · intro hm
          simp only [keys, List.map_cons, List.mem_cons, not_or] at hm
          exact e3 hm.2

theorem remove_spec {n : Nat} (hn : 0 < n) {s : St} {L : Nat → List (Nat × Nat)} {lk : List Nat} (h : Inv n s L lk) (key : Nat) :
    ∃ s' r L', remove n s key = some (s', r) ∧ Correct (Sem L) (.remove key) r ∧ Inv n s' L' lk ∧
      (∀ k, Sem L' k ↔ if r = .ok then k ≠ key ∧ Sem L k else Sem L k) := by
  have hi : key % n < n := Nat.mod_lt _ hn
  obtain ⟨s', r, L', e1, e2, e3, e4, e5⟩ := removeLoop_spec (key := key) h hi [] (L (key % n)) (by simp) (by simp [keys]) none _ (by simp) (h.chain _ hi) s.allocs (h.len _)
  refine ⟨s', r, L', e1, ?_, e4, e5⟩
  simp only [Correct, sem_home h key]
  exact ⟨e2, e3⟩

theorem popLoop_spec {n : Nat} {s : St} {L : Nat → List (Nat × Nat)} {lk : List Nat} (h : Inv n s L lk) (k i : Nat) (hik : i + k = n)
    (hempty : ∀ j, j < i → L j = []) :
    ∃ s' key L' lk', popLoop s k i = some (s', .key key) ∧ ((∃ x, Sem L x) → Sem L key) ∧ ((¬ ∃ x, Sem L x) → key = 0) ∧ Inv n s' L' lk' ∧
      (∀ x, Sem L' x ↔ (x ≠ key ∧ Sem L x)) := by
  induction k generalizing i with
  | zero =>
    have hno : ¬ ∃ x, Sem L x := by
      rintro ⟨x, j, hj⟩
      have : L j = [] := by
        by_cases hjn : j < n
        · exact hempty j (by omega)
        · exact h.out j (by omega)
      rw [this] at hj
      simp [keys] at hj
    refine ⟨s, 0, L, lk, rfl, fun hx => absurd hx hno, fun _ => rfl, h, ?_⟩
    intro x
    exact ⟨fun hx => (hno ⟨x, hx⟩).elim, fun hx => hx.2⟩
  | succ k ih =>
    have hi : i < n := by omega
    have hc := h.chain i hi
    cases hLi : L i with
    | nil =>
      rw [hLi] at hc
      simp only [Chain] at hc
      simp only [popLoop, hc]
      exact ih (i + 1) (by omega) (fun j hj => by
        rcases Nat.lt_succ_iff_lt_or_eq.1 hj with hj | rfl
        · exact hempty j hj
        · exact hLi)
    | cons x rest =>
      obtain ⟨a, key⟩ := x
      rw [hLi] at hc
      obtain ⟨h1, nx, h2, h3⟩ := hc
      simp only [popLoop, h1, h2]
      have hai : a ∈ addrs (L i) := by rw [hLi]; simp [addrs]
      have hkey : Sem L key := ⟨i, by rw [hLi]; simp [keys]⟩
      obtain ⟨i1, i2⟩ := inv_cut h (pre := []) hLi hi (s' := { s with buckets := upd s.buckets i nx }) (lk' := a :: lk) rfl
        (by simp only [List.nil_append, upd, if_true]; exact h3)
        (fun j hj hjn => by simp only [upd, hj, if_false]; exact h.chain j hjn)
        (fun b => by
          rw [h.live b]
          simp only [List.mem_cons]
          by_cases eb : b = a
          · subst eb; simp only [true_or, iff_true]; exact .inr ⟨i, hai⟩
          · simp [eb])
        (fun b hb => by
          simp only [List.mem_cons] at hb
          rcases hb with rfl | hb
          · exact .inl rfl
          · exact .inr (h.lk b hb))
      refine ⟨_, key, _, _, rfl, fun _ => hkey, fun hno => absurd ⟨key, hkey⟩ hno, i1, ?_⟩
      exact i2

theorem inv_init (n : Nat) : Inv n init (fun _ => []) [] := by
  constructor <;> simp [init, Chain, addrs, keys]

/-- one call -/
theorem step_spec {n : Nat} (hn : 0 < n) {s : St} {L : Nat → List (Nat × Nat)} {lk : List Nat} (h : Inv n s L lk) (op : Op) (ha : Allowed s op) :
    ∃ s' r L' lk', step n s op = some (s', r) ∧ Correct (Sem L) op r ∧ Inv n s' L' lk' ∧
      (∀ hist, (∀ k, Sem L k ↔ Has hist k) → ∀ k, Sem L' k ↔ Has (hist ++ [(op, r)]) k) ∧ (op ≠ .pop → lk' = lk) := by
  cases op with
  | insert key al =>
    obtain ⟨s', r, L', e1, e2, e3, e4⟩ := insert_spec hn h key al ha
    refine ⟨s', r, L', lk, e1, e2, e3, ?_, fun _ => rfl⟩
    intro hist hh k
    have e4 := e4 k
    simp only [hh] at e4
    rw [e4]
    simp only [Has, List.reverse_append, List.reverse_cons, List.reverse_nil, List.nil_append, List.cons_append]
    cases r <;> simp [Mem.after]
  | remove key =>
    obtain ⟨s', r, L', e1, e2, e3, e4⟩ := remove_spec hn h key
    refine ⟨s', r, L', lk, e1, e2, e3, ?_, fun _ => rfl⟩
    intro hist hh k
    have e4 := e4 k
    simp only [hh] at e4
    rw [e4]
    simp only [Has, List.reverse_append, List.reverse_cons, List.reverse_nil, List.nil_append, List.cons_append]
    cases r <;> simp [Mem.after]
  | pop =>
    obtain ⟨s', key, L', lk', e1, e2, e3, e4, e5⟩ := popLoop_spec h n 0 (by omega) (by intro j hj; omega)
    refine ⟨s', .key key, L', lk', e1, ⟨key, rfl, e2, e3⟩, e4, ?_, fun hc => absurd rfl hc⟩
    intro hist hh k
    have e5 := e5 k
    simp only [hh] at e5
    rw [e5]
    simp only [Has, List.reverse_append, List.reverse_cons, List.reverse_nil, List.nil_append, List.cons_append, Mem.after]

theorem reach_inv {n : Nat} (hn : 0 < n) {hist : List (Op × Res)} {s : St} (h : Reach n hist s) :
    ∃ L lk, Inv n s L lk ∧ (∀ k, Sem L k ↔ Has hist k) ∧ ((∀ x ∈ hist, x.1 ≠ .pop) → lk = []) := by
  induction h with
  | init => exact ⟨_, _, inv_init n, by simp [Sem, keys, Has, Mem.after], fun _ => rfl⟩
  | @step hist s s' op r h ha hs ih =>
    obtain ⟨L, lk, hI, hS, hl⟩ := ih
    obtain ⟨s2, r2, L', lk', e1, e2, e3, e4, e5⟩ := step_spec hn hI op ha
    rw [hs] at e1
    obtain ⟨rfl, rfl⟩ := Prod.mk.inj (Option.some.inj e1)
    refine ⟨L', lk', e3, e4 _ hS, ?_⟩
    intro hp
    rw [e5 (hp _ (List.mem_append_right _ (List.mem_singleton_self _)))]
    exact hl fun x hx => hp x (List.mem_append_left _ hx)

/-- **C25.** After every history of Insert/Remove/Pop calls, for every number of buckets (with one bucket all keys collide) and every behaviour of the allocator:
the next call runs without touching freed memory and terminates, and reports exactly what the set of present keys demands. -/
theorem C25_refines {n : Nat} (hn : 0 < n) {hist : List (Op × Res)} {s : St} (h : Reach n hist s) (op : Op) (ha : Allowed s op) :
    ∃ s' r, step n s op = some (s', r) ∧ Correct (Has hist) op r := by
  obtain ⟨L, lk, hI, hS, _⟩ := reach_inv hn h
  obtain ⟨s', r, _, _, e1, e2, _⟩ := step_spec hn hI op ha
  have : Sem L = Has hist := funext fun k => propext (hS k)
  rw [this] at e2
  exact ⟨s', r, e1, e2⟩

theorem freeChain_spec {m : Mem} {p : Option Nat} {l : List (Nat × Nat)} (h : Chain m p l) (hnd : (addrs l).Nodup) {fuel : Nat} (hf : l.length ≤ fuel) :
    ∃ m', freeChain fuel m p = some m' ∧ ∀ b, m' b = if b ∈ addrs l then none else m b := by
  induction l generalizing m p fuel with
  | nil => simp only [Chain] at h; subst h; exact ⟨m, by simp [freeChain], by simp [addrs]⟩
  | cons x l ih =>
    obtain ⟨a, k⟩ := x
    obtain ⟨h1, nx, h2, h3⟩ := h
    subst h1
    cases fuel with
    | zero => simp at hf
    | succ fuel =>
      simp only [addrs, List.map_cons, List.nodup_cons] at hnd
      obtain ⟨m', e1, e2⟩ := ih (chain_frame h3 hnd.1 none) hnd.2 (fuel := fuel) (by simpa using hf)
      refine ⟨m', by simp only [freeChain, h2]; exact e1, ?_⟩
      intro b
      rw [e2 b]
      have hm : b ∈ addrs ((a, k) :: l) ↔ b = a ∨ b ∈ addrs l := by simp only [addrs, List.map_cons, List.mem_cons]
      simp only [upd]
      by_cases hl : b ∈ addrs l
      · rw [if_pos hl, if_pos (hm.2 (.inr hl))]
      · rw [if_neg hl]
        by_cases hb : b = a
        · rw [if_pos hb, if_pos (hm.2 (.inl hb))]
        · rw [if_neg hb, if_neg (fun hc => (hm.1 hc).elim hb hl)]

theorem chain_congr {m m' : Mem} {p : Option Nat} {l : List (Nat × Nat)} (h : Chain m p l) (he : ∀ a ∈ addrs l, m' a = m a) : Chain m' p l := by
  induction l generalizing p with
  | nil => exact h
  | cons x l ih =>
    obtain ⟨b, k⟩ := x
    obtain ⟨h1, nx, h2, h3⟩ := h
    refine ⟨h1, nx, ?_, ih h3 fun a ha => he a (by simp only [addrs, List.map_cons, List.mem_cons]; exact .inr ha)⟩
    rw [he b (by simp [addrs]), h2]

theorem destroyLoop_spec {n : Nat} {s : St} {L : Nat → List (Nat × Nat)} {lk : List Nat} (h : Inv n s L lk) (k i : Nat) (hik : i + k = n) (m : Mem)
    (hm : ∀ b, m b = if ∃ j, j < i ∧ b ∈ addrs (L j) then none else s.mem b) :
    ∃ m', destroyLoop s k i m = some m' ∧ ∀ b, m' b = if ∃ j, j < n ∧ b ∈ addrs (L j) then none else s.mem b := by
  induction k generalizing i m with
  | zero => exact ⟨m, rfl, by have : i = n := by omega
                              subst this; exact hm⟩
  | succ k ih =>
    have hi : i < n := by omega
    have hc : Chain m (s.buckets i) (L i) := by
      refine chain_congr (h.chain i hi) fun a ha => ?_
      rw [hm a, if_neg]
      rintro ⟨j, hj, hj'⟩
      exact h.disj j i (by omega) a hj' ha
    obtain ⟨m1, e1, e2⟩ := freeChain_spec hc (h.nodup i) (h.len i)
    simp only [destroyLoop, e1]
    refine ih (i + 1) (by omega) m1 ?_
    intro b
    rw [e2 b, hm b]
    by_cases hb : b ∈ addrs (L i)
    · rw [if_pos hb, if_pos ⟨i, by omega, hb⟩]
    · rw [if_neg hb]
      by_cases hj : ∃ j, j < i ∧ b ∈ addrs (L j)
      · obtain ⟨j, hj, hj'⟩ := hj
        rw [if_pos ⟨j, hj, hj'⟩, if_pos ⟨j, by omega, hj'⟩]
      · rw [if_neg hj, if_neg]
        rintro ⟨j, hj1, hj2⟩
        rcases Nat.lt_succ_iff_lt_or_eq.1 hj1 with h1 | rfl
        · exact hj ⟨j, h1, hj2⟩
        · exact hb hj2

/-- **C25.** The destructor frees every entry exactly once, if `Pop` was not used. -/
theorem C25_no_leak_partial {n : Nat} (hn : 0 < n) {hist : List (Op × Res)} {s : St} (h : Reach n hist s) (hp : ∀ x ∈ hist, x.1 ≠ .pop) :
    ∃ m, destroy n s = some m ∧ ∀ a, m a = none := by
  obtain ⟨L, lk, hI, _, hl⟩ := reach_inv hn h
  obtain ⟨m, e1, e2⟩ := destroyLoop_spec hI n 0 (by omega) s.mem (by intro b; rw [if_neg]; rintro ⟨j, hj, _⟩; omega)
  refine ⟨m, e1, fun a => ?_⟩
  rw [e2 a]
  split
  · rfl
  · rename_i hno
    have hlk := hl hp
    subst hlk
    refine Classical.byContradiction fun hc => ?_
    rcases (hI.live a).1 hc with h1 | ⟨i, hi⟩
    · simp at h1
    · refine hno ⟨i, ?_, hi⟩
      refine Classical.byContradiction fun hge => ?_
      rw [hI.out i (by omega)] at hi
      simp [addrs] at hi

/-- The destructor is also safe after `Pop` (no double free) … -/
theorem C25_destroy_safe {n : Nat} (hn : 0 < n) {hist : List (Op × Res)} {s : St} (h : Reach n hist s) : ∃ m, destroy n s = some m := by
  obtain ⟨L, lk, hI, _, _⟩ := reach_inv hn h
  obtain ⟨m, e1, _⟩ := destroyLoop_spec hI n 0 (by omega) s.mem (by intro b; rw [if_neg]; rintro ⟨j, hj, _⟩; omega)
  exact ⟨m, e1⟩

theorem reach_ex : ∃ s, Reach 1 [(.insert 8 (some 5), .ok), (.insert 16 (some 9), .ok), (.insert 8 none, .false_), (.remove 8, .ok)] s := by
  have h1 : Reach 1 [(.insert 8 (some 5), .ok)] _ := .step (h := []) .init (by simp [Allowed, init]) rfl
  have h2 : Reach 1 [(.insert 8 (some 5), .ok), (.insert 16 (some 9), .ok)] _ := .step (h := [_]) h1 (by simp [Allowed, init, upd]) rfl
  have h3 : Reach 1 [(.insert 8 (some 5), .ok), (.insert 16 (some 9), .ok), (.insert 8 none, .false_)] _ := .step (h := [_, _]) h2 (by simp [Allowed]) rfl
  exact ⟨_, .step (h := [_, _, _]) h3 (by simp [Allowed]) rfl⟩

/-- … but the entry popped is never freed. -/
theorem C25_pop_leak_fails : ∃ hist s m a, Reach 128 hist s ∧ destroy 128 s = some m ∧ (¬ ∃ k, Has hist k) ∧ m a ≠ none := by
  have h1 : Reach 128 [(.insert 8 (some 5), .ok)] ⟨upd (fun _ => none) 5 (some ⟨none, 8⟩), upd (fun _ => none) 8 (some 5), 1⟩ :=
    .step (h := []) .init (by simp [Allowed, init]) rfl
  have h2 : Reach 128 [(.insert 8 (some 5), .ok), (.pop, .key 8)] ⟨upd (fun _ => none) 5 (some ⟨none, 8⟩), upd (upd (fun _ => none) 8 (some 5)) 8 none, 1⟩ :=
    .step (h := [_]) h1 (by simp [Allowed]) rfl
  obtain ⟨m, hm⟩ := C25_destroy_safe (by omega) h2
  refine ⟨_, _, m, 5, h2, hm, ?_, ?_⟩
  · rintro ⟨k, hk⟩
    simp [Has, Mem.after] at hk
  · have hb : ∀ i, (upd (upd (fun _ => none) 8 (some 5)) 8 none : Nat → Option Nat) i = none := by
      intro i; simp only [upd]; split <;> simp_all
    have : ∀ k i (mm : Mem), destroyLoop ⟨upd (fun _ => none) 5 (some ⟨none, 8⟩), upd (upd (fun _ => none) 8 (some 5)) 8 none, 1⟩ k i mm = some mm := by
      intro k
      induction k with
      | zero => intro i mm; rfl
      | succ k ih => intro i mm; simp only [destroyLoop, hb, freeChain]; exact ih _ _
    rw [destroy, this] at hm
    rw [← Option.some.inj hm]
    simp [upd]

example : Has [(.insert 8 (some 5), .ok), (.insert 16 (some 9), .ok), (.insert 8 none, .false_), (.remove 8, .ok)] 16 := by simp [Has, Mem.after]

#print axioms C25_refines
#print axioms C25_no_leak_partial
#print axioms C25_pop_leak_fails

end Verif.HashSet
