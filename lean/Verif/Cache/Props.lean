import Verif.Cache.Model

/-! C74: lazily created shared instances. -/
namespace Verif.Cache
open Verif.Common

/-- references of thread `p` to instance `i` -/
def cnt (i : Nat) : Pc → Nat
  | .made j | .lost j _ | .holds j => if j = i then 1 else 0
  | _ => 0

def inCache (s : St) (i : Nat) : Nat := if s.cache = some i then 1 else 0
def inExit (s : St) (i : Nat) : Nat := if s.ex = .rel i then 1 else 0
def rc (r : List Nat) (i : Nat) : Nat := r[i]?.getD 0

structure Inv (s : St) : Prop where
  refs : ∀ i, rc s.refs i = inCache s i + inExit s i + sumBy (cnt i) s.ts
  reg : s.cache ≠ none → 0 < s.reg
  got : ∀ (t i : Nat), s.ts[t]? = some (Pc.got i) → s.cache = some i
  lost : ∀ (t i j : Nat), s.ts[t]? = some (Pc.lost i j) → s.cache = some j
  one : s.exits = 0 → s.ex = .no ∧ ∀ (t i : Nat), s.ts[t]? = some (Pc.holds i) → s.cache = some i
  bad : s.bad = false

theorem rc_set (r : List Nat) (i j n : Nat) (h : 0 < rc r i) : rc (r.set i n) j = if i = j then n else rc r j := by
  have hi : i < r.length := by
    rcases Nat.lt_or_ge i r.length with h' | h'
    · exact h'
    · simp [rc, List.getElem?_eq_none h'] at h
  unfold rc
  by_cases e : i = j
  · subst e; rw [if_pos rfl, List.getElem?_set_self hi]; rfl
  · rw [if_neg e, List.getElem?_set_ne e]

theorem rc_set' (r : List Nat) (i j n : Nat) : i ≠ j → rc (r.set i n) j = rc r j := fun e => by
  unfold rc; rw [List.getElem?_set_ne e]

theorem rc_append (r : List Nat) (j : Nat) : rc (r ++ [1]) j = rc r j + if j = r.length then 1 else 0 := by
  unfold rc
  by_cases e : j = r.length
  · subst e; simp
  · rw [if_neg e]
    rcases Nat.lt_or_ge j r.length with h | h
    · rw [List.getElem?_append_left h]; rfl
    · rw [List.getElem?_eq_none (by simp; omega), List.getElem?_eq_none h]; rfl

theorem get_set {l : List Pc} {t u : Nat} {x y : Pc} (h : (l.set t x)[u]? = some y) : (u = t ∧ y = x) ∨ (u ≠ t ∧ l[u]? = some y) := by
  by_cases e : t = u
  · subst e
    rw [List.getElem?_set] at h
    split at h
    · split at h
      · cases h; exact .inl ⟨rfl, rfl⟩
      · cases h
    · exact absurd rfl ‹_›
  · rw [List.getElem?_set_ne e] at h; exact .inr ⟨fun h => e h.symm, h⟩

theorem inv_init (n : Nat) : Inv (init n) := by
  have hz : ∀ i, sumBy (cnt i) (List.replicate n Pc.idle) = 0 := fun i => (sumBy_eq_zero _ _).2 fun x hx => by
    rw [List.eq_of_mem_replicate hx]; rfl
  have hr : ∀ (t : Nat) p, (List.replicate n Pc.idle)[t]? = some p → p = .idle := fun t p h => List.eq_of_mem_replicate (List.mem_of_getElem? h)
  refine ⟨fun i => ?_, fun h => absurd rfl h, fun t i h => ?_, fun t i j h => ?_, fun _ => ⟨rfl, fun t i h => ?_⟩, rfl⟩
  · simp [init, rc, inCache, inExit, hz]
  · have := hr t _ h; cases this
  · have := hr t _ h; cases this
  · have := hr t _ h; cases this

theorem cnt_pos {s : St} (I : Inv s) {t i : Nat} {p : Pc} (h : s.ts[t]? = some p) (hc : cnt i p = 1) : 0 < rc s.refs i := by
  have := le_sumBy (cnt i) s.ts t p h
  have := I.refs i
  omega

theorem dead_false {r : List Nat} {i : Nat} (h : 0 < rc r i) : dead r i = false := by
  unfold dead; unfold rc at h; simp; omega

/-- a release by thread `t`, which had a reference -/
theorem rel_refs {s : St} (I : Inv s) {t i : Nat} {p q : Pc} (h : s.ts[t]? = some p) (hc : ∀ k, cnt k p = if i = k then 1 else 0) (hq : ∀ k, cnt k q = 0) :
    ∀ k, rc (release s.refs i) k = inCache s k + inExit s k + sumBy (cnt k) (s.ts.set t q) := by
  intro k
  have hp := cnt_pos I h (by rw [hc, if_pos rfl])
  unfold release
  rw [rc_set _ _ _ _ hp]
  have h1 := sumBy_set (cnt k) s.ts t q p h
  have h2 := le_sumBy (cnt k) s.ts t p h
  have h3 := I.refs k
  rw [hc k] at h1 h2; rw [hq k] at h1
  by_cases e : i = k
  · subst e; rw [if_pos rfl] at h1 h2 ⊢; unfold rc at h3; omega
  · rw [if_neg e] at h1 h2 ⊢; omega

theorem inv_step {s s' : St} (I : Inv s) (h : Step false s s') : Inv s' := by
  cases h with
  | hit t i ht hc =>
    refine ⟨fun k => ?_, I.reg, fun u j hu => ?_, fun u j k hu => ?_, fun he => ⟨(I.one he).1, fun u j hu => ?_⟩, I.bad⟩
    · have h1 := sumBy_set (cnt k) s.ts t (.got i) _ ht
      have h2 : sumBy (cnt k) (s.ts.set t (.got i)) = sumBy (cnt k) s.ts := by simp only [cnt] at h1; omega
      show rc s.refs k = inCache s k + inExit s k + _
      rw [h2]; exact I.refs k
    · rcases get_set hu with ⟨_, e⟩ | ⟨_, hu⟩
      · cases e; exact hc
      · exact I.got u j hu
    · rcases get_set hu with ⟨_, e⟩ | ⟨_, hu⟩
      · cases e
      · exact I.lost u j k hu
    · rcases get_set hu with ⟨_, e⟩ | ⟨_, hu⟩
      · cases e
      · exact (I.one he).2 u j hu
  | miss t ht hc =>
    have hl : rc s.refs s.refs.length = 0 := by simp [rc]
    refine ⟨fun k => ?_, I.reg, fun u j hu => ?_, fun u j k hu => ?_, fun he => ⟨(I.one he).1, fun u j hu => ?_⟩, I.bad⟩
    · show rc (s.refs ++ [1]) k = inCache s k + inExit s k + sumBy (cnt k) (s.ts.set t (.made s.refs.length))
      have h1 := sumBy_set (cnt k) s.ts t (.made s.refs.length) _ ht
      have h3 := I.refs k
      simp only [cnt] at h1
      rw [rc_append]
      by_cases e : k = s.refs.length
      · rw [if_pos e.symm] at h1; rw [if_pos e]; omega
      · rw [if_neg (fun h => e h.symm)] at h1; rw [if_neg e]; omega
    · rcases get_set hu with ⟨_, e⟩ | ⟨_, hu⟩
      · cases e
      · exact I.got u j hu
    · rcases get_set hu with ⟨_, e⟩ | ⟨_, hu⟩
      · cases e
      · exact I.lost u j k hu
    · rcases get_set hu with ⟨_, e⟩ | ⟨_, hu⟩
      · cases e
      · exact (I.one he).2 u j hu
  | fail t i ht =>
    refine ⟨rel_refs I ht (fun _ => rfl) (fun _ => rfl), I.reg, fun u j hu => ?_, fun u j k hu => ?_, fun he => ⟨(I.one he).1, fun u j hu => ?_⟩, ?_⟩
    · rcases get_set hu with ⟨_, e⟩ | ⟨_, hu⟩
      · cases e
      · exact I.got u j hu
    · rcases get_set hu with ⟨_, e⟩ | ⟨_, hu⟩
      · cases e
      · exact I.lost u j k hu
    · rcases get_set hu with ⟨_, e⟩ | ⟨_, hu⟩
      · cases e
      · exact (I.one he).2 u j hu
    · simp only [I.bad, dead_false (cnt_pos (i := i) I ht (by simp [cnt])), Bool.or_self]
  | win t i ht hc =>
    refine ⟨fun k => ?_, fun _ => Nat.succ_pos _, fun u j hu => ?_, fun u j k hu => ?_, fun he => ⟨(I.one he).1, fun u j hu => ?_⟩, I.bad⟩
    · have h1 := sumBy_set (cnt k) s.ts t (.got i) _ ht
      have h2 := le_sumBy (cnt k) s.ts t _ ht
      have h3 := I.refs k
      simp only [cnt] at h1 h2
      simp only [inCache, hc, inExit] at h3 ⊢
      by_cases e : i = k
      · subst e; simp at h1 h2 h3 ⊢; omega
      · rw [if_neg e] at h1 h2; rw [if_neg (by simp)] at h3; rw [if_neg (by simp [e])]; omega
    · rcases get_set hu with ⟨_, e⟩ | ⟨_, hu⟩
      · cases e; rfl
      · have := I.got u j hu; rw [hc] at this; cases this
    · rcases get_set hu with ⟨_, e⟩ | ⟨_, hu⟩
      · cases e
      · have := I.lost u j k hu; rw [hc] at this; cases this
    · rcases get_set hu with ⟨_, e⟩ | ⟨_, hu⟩
      · cases e
      · have := (I.one he).2 u j hu; rw [hc] at this; cases this
  | lose t i j ht hc =>
    refine ⟨fun k => ?_, I.reg, fun u j hu => ?_, fun u j k hu => ?_, fun he => ⟨(I.one he).1, fun u j hu => ?_⟩, I.bad⟩
    · have h1 := sumBy_set (cnt k) s.ts t (.lost i j) _ ht
      have h2 : sumBy (cnt k) (s.ts.set t (.lost i j)) = sumBy (cnt k) s.ts := by simp only [cnt] at h1; omega
      show rc s.refs k = inCache s k + inExit s k + _
      rw [h2]; exact I.refs k
    · rcases get_set hu with ⟨_, e⟩ | ⟨_, hu⟩
      · cases e
      · exact I.got u j hu
    · rcases get_set hu with ⟨_, e⟩ | ⟨_, hu⟩
      · cases e; exact hc
      · exact I.lost u j k hu
    · rcases get_set hu with ⟨_, e⟩ | ⟨_, hu⟩
      · cases e
      · exact (I.one he).2 u j hu
  | drop t i j ht =>
    refine ⟨rel_refs I ht (fun _ => rfl) (fun _ => rfl), I.reg, fun u j hu => ?_, fun u j k hu => ?_, fun he => ⟨(I.one he).1, fun u j hu => ?_⟩, ?_⟩
    · rcases get_set hu with ⟨_, e⟩ | ⟨_, hu⟩
      · cases e; exact I.lost t i _ ht
      · exact I.got u j hu
    · rcases get_set hu with ⟨_, e⟩ | ⟨_, hu⟩
      · cases e
      · exact I.lost u j k hu
    · rcases get_set hu with ⟨_, e⟩ | ⟨_, hu⟩
      · cases e
      · exact (I.one he).2 u j hu
    · simp only [I.bad, dead_false (cnt_pos (i := i) I ht (by simp [cnt])), Bool.or_self]
  | ret t i ht =>
    have hc := I.got t i ht
    have hp : 0 < rc s.refs i := by
      have := I.refs i
      simp only [inCache, hc, if_true] at this; omega
    refine ⟨fun k => ?_, I.reg, fun u j hu => ?_, fun u j k hu => ?_, fun he => ⟨(I.one he).1, fun u j hu => ?_⟩, ?_⟩
    · show rc (addRef s.refs i) k = inCache s k + inExit s k + sumBy (cnt k) (s.ts.set t (.holds i))
      unfold addRef
      rw [rc_set _ _ _ _ hp]
      have h1 := sumBy_set (cnt k) s.ts t (.holds i) _ ht
      have h3 := I.refs k
      simp only [cnt] at h1
      by_cases e : i = k
      · subst e; rw [if_pos rfl] at h1 ⊢; unfold rc at h3; omega
      · rw [if_neg e] at h1 ⊢; omega
    · rcases get_set hu with ⟨_, e⟩ | ⟨_, hu⟩
      · cases e
      · exact I.got u j hu
    · rcases get_set hu with ⟨_, e⟩ | ⟨_, hu⟩
      · cases e
      · exact I.lost u j k hu
    · rcases get_set hu with ⟨_, e⟩ | ⟨_, hu⟩
      · cases e; exact hc
      · exact (I.one he).2 u j hu
    · simp only [I.bad, dead_false hp, Bool.or_self]
  | done t i ht =>
    refine ⟨rel_refs I ht (fun _ => rfl) (fun _ => rfl), I.reg, fun u j hu => ?_, fun u j k hu => ?_, fun he => ⟨(I.one he).1, fun u j hu => ?_⟩, ?_⟩
    · rcases get_set hu with ⟨_, e⟩ | ⟨_, hu⟩
      · cases e
      · exact I.got u j hu
    · rcases get_set hu with ⟨_, e⟩ | ⟨_, hu⟩
      · cases e
      · exact I.lost u j k hu
    · rcases get_set hu with ⟨_, e⟩ | ⟨_, hu⟩
      · cases e
      · exact (I.one he).2 u j hu
    · simp only [I.bad, dead_false (cnt_pos (i := i) I ht (by simp [cnt])), Bool.or_self]
  | exit i hr hx hc hl =>
    have hl := hl rfl
    refine ⟨fun k => ?_, fun h => absurd rfl h, fun u j hu => ?_, fun u j k hu => ?_, fun he => ?_, I.bad⟩
    · have h3 := I.refs k
      simp only [inCache, hc, inExit, hx] at h3 ⊢
      by_cases e : i = k
      · subst e; simp at h3 ⊢; omega
      · simp [e] at h3 ⊢; omega
    · have := hl _ (List.mem_of_getElem? hu); cases this
    · have := hl _ (List.mem_of_getElem? hu); cases this
    · simp at he
  | exit0 hr hx hc =>
    refine ⟨I.refs, fun h => absurd hc h, I.got, I.lost, fun he => ?_, I.bad⟩
    simp at he
  | exitRel i hx =>
    have hp : 0 < rc s.refs i := by
      have := I.refs i
      simp only [inExit, hx, if_true] at this; omega
    refine ⟨fun k => ?_, I.reg, I.got, I.lost, fun he => ?_, ?_⟩
    · show rc (release s.refs i) k = inCache s k + inExit { s with ex := .no } k + _
      unfold release
      rw [rc_set _ _ _ _ hp]
      have h3 := I.refs k
      simp only [inExit, hx] at h3 ⊢
      by_cases e : i = k
      · subst e; simp at h3 ⊢; unfold rc at h3; omega
      · simp [e] at h3 ⊢; exact h3
    · have := (I.one he).1; rw [hx] at this; cases this
    · simp only [I.bad, dead_false hp, Bool.or_self]

theorem reach_inv {n s} (r : Reach false n s) : Inv s := by
  induction r with
  | init => exact inv_init n
  | step _ h ih => exact inv_step ih h

/-- the number of callers that hold a reference to `i`, or threads inside the call that own one -/
def owners (s : St) (i : Nat) : Nat := (s.ts.filter fun p => match p with
  | .holds j | .made j | .lost j _ => decide (j = i)
  | _ => false).length

theorem owners_eq (i : Nat) (l : List Pc) : (l.filter fun p => match p with
  | .holds j | .made j | .lost j _ => decide (j = i)
  | _ => false).length = sumBy (cnt i) l := by
  induction l with
  | nil => rfl
  | cons p l ih =>
    rw [sumBy_cons, ← ih]
    cases p <;> simp only [List.filter_cons, cnt] <;> (try split) <;> simp_all <;> omega

/-- **C74 (partial).** In every schedule in which the exit handler does not run while a thread is between reading the static and taking its reference: no destroyed instance is used; the reference count of every instance is
exactly the number of its owners (the static, the exit handler, threads), so an instance lives while one of them has it and is destroyed with the last; an instance in the static has an exit handler to release it; and before the
first exit handler all callers share one instance. Missing: the exit handler running in between (`C74_exit_fails`). -/
theorem C74_timezone_partial {n s} (r : Reach false n s) :
    s.bad = false ∧ (∀ i : Nat, s.refs[i]?.getD 0 = (if s.cache = some i then 1 else 0) + (if s.ex = .rel i then 1 else 0) + owners s i) ∧
    (s.cache ≠ none → 0 < s.reg) ∧ (s.exits = 0 → ∀ (t u i j : Nat), s.ts[t]? = some (Pc.holds i) → s.ts[u]? = some (Pc.holds j) → i = j) := by
  have I := reach_inv r
  refine ⟨I.bad, fun i => ?_, I.reg, fun he t u i j h1 h2 => ?_⟩
  · unfold owners; rw [owners_eq]; exact I.refs i
  · have a := (I.one he).2 t i h1
    have b := (I.one he).2 u j h2
    rw [a] at b; cases b; rfl

/-- once every caller is done, the exit handlers have run and nobody called again, no instance is left -/
theorem C74_no_leak_partial {n s} (r : Reach false n s) (h0 : s.reg = 0) (hx : s.ex = .no) (hi : ∀ p ∈ s.ts, p = .idle) : ∀ i : Nat, s.refs[i]?.getD 0 = 0 := by
  have I := reach_inv r
  intro i
  have h1 := I.refs i
  have hc : s.cache = none := by
    cases h : s.cache with
    | none => rfl
    | some j => have := I.reg (by rw [h]; nofun); omega
  have hs : sumBy (cnt i) s.ts = 0 := (sumBy_eq_zero _ _).2 fun p hp => by rw [hi p hp]; rfl
  simp only [inCache, hc, inExit, hx, hs] at h1
  simpa [rc] using h1

/-- a schedule with two threads: both find the static null, one wins, both get the same instance, and exit destroys it last -/
example : ∃ s, Reach false 2 s ∧ s.refs = [3, 0] ∧ s.ts = [.holds 0, .holds 0] ∧ s.cache = some 0 ∧ s.exits = 0 := by
  have r0 := Reach.init (late := false) (n := 2)
  have r1 := r0.step (.miss _ 0 rfl rfl)
  have r2 := r1.step (.miss _ 1 rfl rfl)
  have r3 := r2.step (.win _ 0 0 rfl rfl)
  have r4 := r3.step (.lose _ 1 1 0 rfl rfl)
  have r5 := r4.step (.drop _ 1 1 0 rfl)
  have r6 := r5.step (.ret _ 0 0 rfl)
  have r7 := r6.step (.ret _ 1 0 rfl)
  exact ⟨_, r7, rfl, rfl, rfl, rfl⟩

/-- a schedule that ends with no instance -/
example : ∃ s, Reach false 1 s ∧ s.reg = 0 ∧ s.ex = .no ∧ s.ts = [.idle] ∧ s.refs = [0] := by
  have r0 := Reach.init (late := false) (n := 1)
  have r1 := r0.step (.miss _ 0 rfl rfl)
  have r2 := r1.step (.win _ 0 0 rfl rfl)
  have r3 := r2.step (.ret _ 0 0 rfl)
  have r4 := r3.step (.exit _ 0 (by decide) rfl rfl (fun _ => by decide))
  have r5 := r4.step (.exitRel _ 0 rfl)
  have r6 := r5.step (.done _ 0 0 rfl)
  exact ⟨_, r6, rfl, rfl, rfl, rfl⟩

/-- **C74 fails with an exit handler in the middle**: a thread reads the static, the exit handler releases and destroys the instance, the thread then adds a reference to freed memory and hands it to its caller. -/
theorem C74_exit_fails : ∃ s, Reach true 2 s ∧ s.bad = true ∧ s.ts[1]? = some (.holds 0) := by
  have r0 := Reach.init (late := true) (n := 2)
  have r1 := r0.step (.miss _ 0 rfl rfl)
  have r2 := r1.step (.win _ 0 0 rfl rfl)
  have r3 := r2.step (.ret _ 0 0 rfl)
  have r4 := r3.step (.done _ 0 0 rfl)
  have r5 := r4.step (.hit _ 1 0 rfl rfl)
  have r6 := r5.step (.exit _ 0 (by decide) rfl rfl nofun)
  have r7 := r6.step (.exitRel _ 0 rfl)
  have r8 := r7.step (.ret _ 1 0 rfl)
  exact ⟨_, r8, rfl, rfl⟩

end Verif.Cache
