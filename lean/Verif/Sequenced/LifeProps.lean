import Verif.Sequenced.Life
/-!
# C109 – life of a sequenced runner
-/
namespace Verif.Sequenced.Life
open Verif.Common Verif.Sequenced

/-- owns the reference of a job -/
def PC.holds : PC → Nat
  | .submit | .failRel | .check | .pop | .task _ | .run _ | .sub | .tail | .tail2 | .clean | .rel => 1
  | _ => 0

/-- has task `t` in hand -/
def PC.carry (t : Nat) : PC → Nat
  | .loaded u _ | .pushing u _ | .task u => if u = t then 1 else 0
  | _ => 0

structure Inv (s : St) : Prop where
  refs : s.refs = s.user + s.pool + sumBy PC.holds s.threads
  posts : sumBy PC.post s.threads ≤ s.user
  dead : s.dead = true ↔ s.refs = 0
  bad : s.bad = none
  deadQ : s.dead = true → s.queue = []
  once : ∀ t, s.posted.count t = s.ran.count t + s.cancelled.count t + s.queue.count t + sumBy (PC.carry t) s.threads

theorem busy (pc : PC) (h : pc ≠ .idle) : 0 < pc.holds + pc.post := by
  cases pc <;> simp_all [PC.holds, PC.post]

theorem Inv.alive {s : St} (I : Inv s) (h : 0 < s.user + s.pool ∨ ∃ pc ∈ s.threads, pc ≠ .idle) : s.dead = false := by
  have h1 := I.refs
  have h2 := I.posts
  have : s.refs ≠ 0 := by
    rcases h with h | ⟨pc, hm, hn⟩
    · omega
    · have a := le_sumBy_of_mem PC.holds _ _ hm
      have b := le_sumBy_of_mem PC.post _ _ hm
      have := busy pc hn
      omega
  cases hd : s.dead with
  | false => rfl
  | true => exact absurd (I.dead.1 hd) this

theorem sumBy_rep (f : PC → Nat) (hf : f .idle = 0) (n : Nat) : sumBy f (List.replicate n PC.idle) = 0 := by
  rw [sumBy_eq_zero]
  intro x hx
  rw [List.eq_of_mem_replicate hx, hf]

theorem inv_init (n : Nat) : Inv { threads := List.replicate n .idle } := by
  refine ⟨?_, ?_, by simp, rfl, by simp, fun t => ?_⟩
  · show 1 = 1 + 0 + _
    rw [sumBy_rep _ rfl]
  · show _ ≤ 1
    rw [sumBy_rep _ rfl]; omega
  · show _ = _ + sumBy _ (List.replicate n PC.idle)
    rw [sumBy_rep _ rfl]; simp

/-- a thread moves on and the runner stays alive -/
theorem inv_move {s s' : St} (I : Inv s) (hd : s.dead = false) {i : Nat} {p q : PC} (h : s.threads[i]? = some p) (ht : s'.threads = s.threads.set i q)
    (hr : s'.refs + s.user + s.pool + p.holds = s.refs + s'.user + s'.pool + q.holds) (hp : s.user + q.post ≤ s'.user + p.post)
    (hr0 : s.refs ≤ s'.refs) (hd' : s'.dead = s.dead) (hb : s'.bad = s.bad)
    (ho : ∀ t, s'.posted.count t + s.ran.count t + s.cancelled.count t + s.queue.count t + p.carry t
      = s.posted.count t + s'.ran.count t + s'.cancelled.count t + s'.queue.count t + q.carry t) : Inv s' := by
  have e1 := sumBy_set PC.holds _ _ q _ h
  have e2 := sumBy_set PC.post _ _ q _ h
  have l1 := le_sumBy PC.holds _ _ _ h
  have l2 := le_sumBy PC.post _ _ _ h
  rw [← ht] at e1 e2
  have hne : s.refs ≠ 0 := fun e => by have := I.dead.2 e; rw [hd] at this; cases this
  have h1 := I.refs
  have h2 := I.posts
  refine ⟨by omega, by omega, ?_, by rw [hb]; exact I.bad, ?_, fun t => ?_⟩
  · rw [hd', hd]; constructor
    · intro h; cases h
    · intro h; omega
  · rw [hd', hd]; intro h; cases h
  · have e3 := sumBy_set (PC.carry t) _ _ q _ h
    have l3 := le_sumBy (PC.carry t) _ _ _ h
    rw [← ht] at e3
    have := I.once t
    have := ho t
    omega

/-- nothing but the tasks and the word changes -/
theorem inv_same {s s' : St} (I : Inv s) (hd : s.dead = false) (ht : s'.threads = s.threads)
    (hr : s'.refs + s.user + s.pool = s.refs + s'.user + s'.pool) (hp : s.user ≤ s'.user) (hr0 : s.refs ≤ s'.refs) (hd' : s'.dead = s.dead) (hb : s'.bad = s.bad)
    (ho : ∀ t, s'.posted.count t + s.ran.count t + s.cancelled.count t + s.queue.count t
      = s.posted.count t + s'.ran.count t + s'.cancelled.count t + s'.queue.count t) : Inv s' := by
  have hne : s.refs ≠ 0 := fun e => by have := I.dead.2 e; rw [hd] at this; cases this
  have h1 := I.refs
  have h2 := I.posts
  refine ⟨by rw [ht]; omega, by rw [ht]; omega, ?_, by rw [hb]; exact I.bad, ?_, fun t => ?_⟩
  · rw [hd', hd]; constructor
    · intro h; cases h
    · intro h; omega
  · rw [hd', hd]; intro h; cases h
  · rw [ht]
    have := I.once t
    have := ho t
    omega

theorem count_app (l : List Nat) (x t : Nat) : (l ++ [x]).count t = l.count t + if x = t then 1 else 0 := by
  rw [List.count_append, List.count_singleton]
  by_cases h : x = t
  · subst h; simp
  · simp [h]

theorem count_cons' (l : List Nat) (x t : Nat) : (x :: l).count t = l.count t + if x = t then 1 else 0 := by
  rw [List.count_cons]
  by_cases h : x = t
  · subst h; simp
  · simp [h]

theorem release_threads (s : St) : s.release.threads = s.threads := by unfold St.release; split <;> rfl
theorem release_user (s : St) : s.release.user = s.user := by unfold St.release; split <;> rfl
theorem release_pool (s : St) : s.release.pool = s.pool := by unfold St.release; split <;> rfl
theorem release_posted (s : St) : s.release.posted = s.posted := by unfold St.release; split <;> rfl
theorem release_ran (s : St) : s.release.ran = s.ran := by unfold St.release; split <;> rfl
theorem release_bad (s : St) : s.release.bad = s.bad := by unfold St.release; split <;> rfl
theorem release_refs (s : St) : s.release.refs = s.refs - 1 := by unfold St.release; split <;> simp_all
theorem release_dead (s : St) (hd : s.dead = false) : s.release.dead = true ↔ s.refs - 1 = 0 := by
  unfold St.release; split
  · simp_all
  · rename_i h; simp only [hd]; constructor
    · intro h; cases h
    · intro e; exact absurd e h
theorem release_deadQ (s : St) (hd : s.dead = false) : s.release.dead = true → s.release.queue = [] := by
  unfold St.release; split
  · intro _; rfl
  · simp only [hd]; intro h; cases h
theorem release_count (s : St) (t : Nat) : s.release.cancelled.count t + s.release.queue.count t = s.cancelled.count t + s.queue.count t := by
  unfold St.release; split
  · simp [List.count_append]
  · rfl

theorem sub_user (s : St) (w : Word) (i : Nat) (p : PC) : (St.set { s with word := w } i p).user = s.user := rfl
theorem sub_ran (s : St) (w : Word) (i : Nat) (p : PC) : (St.set { s with word := w } i p).ran = s.ran := rfl

theorem inv_sub {s : St} (I : Inv s) (hd : s.dead = false) {i : Nat} (h : s.threads[i]? = some .sub) (w : Word) (b : Bool) :
    Inv (St.set { s with word := w } i (if b = true then .tail else .check)) := by
  cases b
  · exact inv_move I hd h (q := .check) rfl (by simp [St.set, PC.holds]) (by simp [St.set, PC.post]) (Nat.le_refl _) rfl rfl (fun u => by simp only [St.set, PC.carry])
  · exact inv_move I hd h (q := .tail) rfl (by simp [St.set, PC.holds]) (by simp [St.set, PC.post]) (Nat.le_refl _) rfl rfl (fun u => by simp only [St.set, PC.carry])

theorem inv_step {s s' : St} (I : Inv s) (hs : Step s s') : Inv s' := by
  cases hs with
  | use i pc h hn hd =>
    have := I.alive (.inr ⟨pc, List.mem_of_getElem? h, hn⟩)
    rw [hd] at this; cases this
  | useUser hu hd => have := I.alive (.inl (by omega)); rw [hd] at this; cases this
  | useJob hu hd => have := I.alive (.inl (by omega)); rw [hd] at this; cases this
  | copy hd hu => exact inv_same I hd rfl (by dsimp only; omega) (by dsimp only; omega) (by dsimp only; omega) rfl rfl (fun t => rfl)
  | drop hd hp =>
    have h1 := I.refs
    have h2 := I.posts
    simp only [St.posts] at hp
    refine ⟨?_, ?_, ?_, ?_, ?_, fun t => ?_⟩
    · dsimp only; rw [release_refs, release_pool, release_threads]; omega
    · dsimp only; rw [release_threads]; omega
    · dsimp only; rw [release_refs]; exact release_dead s hd
    · dsimp only; rw [release_bad]; exact I.bad
    · exact release_deadQ s hd
    · dsimp only; rw [release_posted, release_ran, release_threads]
      have := release_count s t
      have := I.once t
      omega
  | keep i t hd h => exact inv_same I hd rfl (by dsimp only; omega) (by dsimp only; omega) (by dsimp only; omega) rfl rfl (fun t => rfl)
  | join hd hu => exact inv_same I hd rfl rfl (Nat.le_refl _) (Nat.le_refl _) rfl rfl (fun t => rfl)
  | interrupt hd hu => exact inv_same I hd rfl rfl (Nat.le_refl _) (Nat.le_refl _) rfl rfl (fun t => rfl)
  | post i t hd h hp =>
    have h2 := I.posts
    simp only [St.posts] at hp
    have e1 := sumBy_set PC.holds _ _ (.loaded t s.word) _ h
    have e2 := sumBy_set PC.post _ _ (.loaded t s.word) _ h
    simp only [PC.holds, PC.post] at e1 e2
    have h1 := I.refs
    refine ⟨?_, ?_, I.dead, I.bad, I.deadQ, fun u => ?_⟩
    · simp only [St.set]; omega
    · simp only [St.set]; omega
    · simp only [St.set]
      have e3 := sumBy_set (PC.carry u) _ _ (.loaded t s.word) _ h
      simp only [PC.carry] at e3
      have := I.once u
      rw [count_app]; omega
  | refuse i t f hd h hf =>
    exact inv_move I hd h rfl (by simp [St.set, PC.holds]) (by simp [St.set, PC.post]) (Nat.le_refl _) rfl rfl
      (fun u => by simp only [St.set, PC.carry]; rw [count_app]; omega)
  | reload i t f hd h hf hl =>
    exact inv_move I hd h rfl (by simp [St.set, PC.holds]) (by simp [St.set, PC.post]) (Nat.le_refl _) rfl rfl (fun u => by simp only [St.set, PC.carry])
  | cas i t f hd h hf hl hw hb =>
    exact inv_move I hd h rfl (by simp [St.set, PC.holds]) (by simp [St.set, PC.post]) (Nat.le_refl _) rfl rfl (fun u => by simp only [St.set, PC.carry])
  | push i t b hd h =>
    exact inv_move I hd h rfl (by simp [St.set, PC.holds]) (by simp [St.set, PC.post]) (Nat.le_refl _) rfl rfl
      (fun u => by simp only [St.set, PC.carry]; rw [count_app]; omega)
  | unlock i b hd h =>
    cases b
    · exact inv_move I hd h (q := .idle) rfl (by simp [St.set, PC.holds]) (by simp [St.set, PC.post]) (Nat.le_refl _) rfl rfl (fun u => by simp only [St.set, PC.carry])
    · exact inv_move I hd h (q := .adding) rfl (by simp [St.set, PC.holds]) (by simp [St.set, PC.post]) (Nat.le_refl _) rfl rfl (fun u => by simp only [St.set, PC.carry])
  | addRef i hd h =>
    exact inv_move I hd h rfl (by simp [St.set, PC.holds]; omega) (by simp [St.set, PC.post]) (by simp [St.set]) rfl rfl (fun u => by simp only [St.set, PC.carry])
  | submit i hd h =>
    exact inv_move I hd h rfl (by simp [St.set, PC.holds]; omega) (by simp [St.set, PC.post]) (by simp [St.set]) rfl rfl (fun u => by simp only [St.set, PC.carry])
  | refused i hd h =>
    exact inv_move I hd h rfl (by simp [St.set, PC.holds]) (by simp [St.set, PC.post]) (Nat.le_refl _) rfl rfl (fun u => by simp only [St.set, PC.carry])
  | failRel i hd h =>
    have h1 := I.refs
    have h2 := I.posts
    have e1 := sumBy_set PC.holds _ _ .failStop _ h
    have e2 := sumBy_set PC.post _ _ .failStop _ h
    simp only [PC.holds, PC.post] at e1 e2
    refine ⟨?_, ?_, ?_, ?_, ?_, fun t => ?_⟩
    · simp only [St.set]; rw [release_refs, release_pool, release_threads, release_user]; omega
    · simp only [St.set]; rw [release_threads, release_user]; omega
    · simp only [St.set]; rw [release_refs]; exact release_dead s hd
    · simp only [St.set]; rw [release_bad]; exact I.bad
    · exact release_deadQ s hd
    · simp only [St.set]; rw [release_posted, release_ran, release_threads]
      have := release_count s t
      have := I.once t
      have e3 := sumBy_set (PC.carry t) _ _ .failStop _ h
      simp only [PC.carry] at e3
      omega
  | failStop i hd h =>
    exact inv_move I hd h rfl (by simp [St.set, PC.holds]) (by simp [St.set, PC.post]) (Nat.le_refl _) rfl rfl (fun u => by simp only [St.set, PC.carry])
  | failCleanPop i t q hd h hq =>
    exact inv_same I hd rfl rfl (Nat.le_refl _) (Nat.le_refl _) rfl rfl (fun u => by dsimp only; rw [count_app, hq, count_cons']; omega)
  | failCleanEnd i hd h hq =>
    exact inv_move I hd h rfl (by simp [St.set, PC.holds]) (by simp [St.set, PC.post]) (Nat.le_refl _) rfl rfl (fun u => by simp only [St.set, PC.carry])
  | start i hd h hp =>
    exact inv_move I hd h rfl (by simp [St.set, PC.holds]; omega) (by simp [St.set, PC.post]) (by simp [St.set]) rfl rfl (fun u => by simp only [St.set, PC.carry])
  | check i hd h =>
    by_cases c : s.refs > 1
    · rw [if_pos c]
      exact inv_move I hd h rfl (by simp [St.set, PC.holds]) (by simp [St.set, PC.post]) (Nat.le_refl _) rfl rfl (fun u => by simp only [St.set, PC.carry])
    · rw [if_neg c]
      exact inv_move I hd h rfl (by simp [St.set, PC.holds]) (by simp [St.set, PC.post]) (Nat.le_refl _) rfl rfl (fun u => by simp only [St.set, PC.carry])
  | pop i t q hd h hq =>
    exact inv_move I hd h rfl (by simp [St.set, PC.holds]) (by simp [St.set, PC.post]) (Nat.le_refl _) rfl rfl
      (fun u => by simp only [St.set, PC.carry]; rw [hq, count_cons']; omega)
  | popNone i hd h hq =>
    exact inv_move I hd h rfl (by simp [St.set, PC.holds]) (by simp [St.set, PC.post]) (Nat.le_refl _) rfl rfl (fun u => by simp only [St.set, PC.carry])
  | run i t hd h =>
    exact inv_move I hd h rfl (by simp [St.set, PC.holds]) (by simp [St.set, PC.post]) (Nat.le_refl _) rfl rfl
      (fun u => by simp only [St.set, PC.carry]; rw [count_app]; omega)
  | done i t hd h =>
    exact inv_move I hd h rfl (by simp [St.set, PC.holds]) (by simp [St.set, PC.post]) (Nat.le_refl _) rfl rfl (fun u => by simp only [St.set, PC.carry])
  | sub i hd h => exact inv_sub I hd h _ _
  | tail i hd h =>
    by_cases c : s.refs > 1
    · rw [if_pos c]
      exact inv_move I hd h rfl (by simp [St.set, PC.holds]) (by simp [St.set, PC.post]) (Nat.le_refl _) rfl rfl (fun u => by simp only [St.set, PC.carry])
    · rw [if_neg c]
      exact inv_move I hd h rfl (by simp [St.set, PC.holds]) (by simp [St.set, PC.post]) (Nat.le_refl _) rfl rfl (fun u => by simp only [St.set, PC.carry])
  | tail2 i hd h =>
    generalize (s.word.intr || (s.word.stop && decide (s.word.cnt = 0))) = b
    cases b
    · exact inv_move I hd h (q := .rel) rfl (by simp [St.set, PC.holds]) (by simp [St.set, PC.post]) (Nat.le_refl _) rfl rfl (fun u => by simp only [St.set, PC.carry])
    · exact inv_move I hd h (q := .clean) rfl (by simp [St.set, PC.holds]) (by simp [St.set, PC.post]) (Nat.le_refl _) rfl rfl (fun u => by simp only [St.set, PC.carry])
  | cleanPop i t q hd h hq =>
    exact inv_same I hd rfl rfl (Nat.le_refl _) (Nat.le_refl _) rfl rfl (fun u => by dsimp only; rw [count_app, hq, count_cons']; omega)
  | cleanEnd i hd h hq =>
    exact inv_move I hd h rfl (by simp [St.set, PC.holds]) (by simp [St.set, PC.post]) (Nat.le_refl _) rfl rfl (fun u => by simp only [St.set, PC.carry])
  | rel i hd h =>
    have h1 := I.refs
    have h2 := I.posts
    have e1 := sumBy_set PC.holds _ _ .idle _ h
    have e2 := sumBy_set PC.post _ _ .idle _ h
    simp only [PC.holds, PC.post] at e1 e2
    refine ⟨?_, ?_, ?_, ?_, ?_, fun t => ?_⟩
    · simp only [St.set]; rw [release_refs, release_pool, release_threads, release_user]; omega
    · simp only [St.set]; rw [release_threads, release_user]; omega
    · simp only [St.set]; rw [release_refs]; exact release_dead s hd
    · simp only [St.set]; rw [release_bad]; exact I.bad
    · exact release_deadQ s hd
    · simp only [St.set]; rw [release_posted, release_ran, release_threads]
      have := release_count s t
      have := I.once t
      have e3 := sumBy_set (PC.carry t) _ _ .idle _ h
      simp only [PC.carry] at e3
      omega

theorem inv_reach {s : St} (h : Reach s) : Inv s := by
  induction h with
  | init n => exact inv_init n
  | step _ hs ih => exact inv_step ih hs

/-- No thread, user or job ever meets a destroyed runner: in every execution `bad` stays empty, and as long as someone may still touch the runner it is alive. -/
theorem C109_safe {s : St} (h : Reach s) :
    s.bad = none ∧ (0 < s.user → s.dead = false) ∧ (0 < s.pool → s.dead = false) ∧ ∀ (i : Nat) (pc : PC), s.threads[i]? = some pc → pc ≠ .idle → s.dead = false := by
  have I := inv_reach h
  exact ⟨I.bad, fun hu => I.alive (.inl (by omega)), fun hu => I.alive (.inl (by omega)), fun i pc hi hn => I.alive (.inr ⟨pc, List.mem_of_getElem? hi, hn⟩)⟩

/-- The runner is destroyed exactly when nobody is left: no reference of a user, no job in the pool, no thread inside it. -/
theorem C109_destroyed {s : St} (h : Reach s) : s.dead = true ↔ s.user = 0 ∧ s.pool = 0 ∧ ∀ pc ∈ s.threads, pc = .idle := by
  have I := inv_reach h
  have h1 := I.refs
  constructor
  · intro hd
    have := I.dead.1 hd
    refine ⟨by omega, by omega, fun pc hm => ?_⟩
    by_cases hn : pc = .idle
    · exact hn
    · have := I.alive (.inr ⟨pc, hm, hn⟩)
      rw [hd] at this; cases this
  · rintro ⟨hu, hp, hi⟩
    have : sumBy PC.holds s.threads = 0 := by
      rw [sumBy_eq_zero]; intro x hx; rw [hi x hx]; rfl
    exact I.dead.2 (by omega)

/-- Every call of `PostTask` is accounted for: the task is still on its way into the queue, in the queue, in the hands of an executor, or it has been run or cancelled – once. After the
destruction only the last two remain. (`Pop` and `Push` are taken as atomic: see C44 for when two threads pop at once.) -/
theorem C109_each_once_partial {s : St} (h : Reach s) (t : Nat) :
    s.posted.count t = s.ran.count t + s.cancelled.count t + s.queue.count t + sumBy (PC.carry t) s.threads
    ∧ (s.dead = true → s.posted.count t = s.ran.count t + s.cancelled.count t) := by
  have I := inv_reach h
  refine ⟨I.once t, fun hd => ?_⟩
  have h1 := I.once t
  have h2 := (C109_destroyed h).1 hd
  have h3 : sumBy (PC.carry t) s.threads = 0 := by
    rw [sumBy_eq_zero]; intro x hx; rw [h2.2.2 x hx]; rfl
  rw [I.deadQ hd] at h1
  simp only [List.count_nil] at h1
  omega

/-- a task posted once runs at most once, and never runs after having been cancelled -/
theorem C109_at_most_once_partial {s : St} (h : Reach s) (t : Nat) (h1 : s.posted.count t ≤ 1) :
    s.ran.count t ≤ 1 ∧ s.cancelled.count t ≤ 1 ∧ ¬ (t ∈ s.ran ∧ t ∈ s.cancelled) := by
  have := (C109_each_once_partial h t).1
  refine ⟨by omega, by omega, fun ⟨a, b⟩ => ?_⟩
  have := List.count_pos_iff.2 a
  have := List.count_pos_iff.2 b
  omega

/-! ### without owners -/

def PC.rank : PC → Nat
  | .task _ => 11
  | .run _ => 10
  | .sub => 9
  | .check => 7
  | .pop => 6
  | .tail => 5
  | .tail2 => 4
  | .clean => 3
  | .rel => 1
  | _ => 0

/-- what is left to do when there is no owner -/
def St.todo (s : St) : Nat := s.queue.length * 10 + s.pool * 8 + sumBy PC.rank s.threads

theorem noPost {s : St} (I : Inv s) (hu : s.user = 0) {i : Nat} {pc : PC} (h : s.threads[i]? = some pc) : pc.post = 0 := by
  have := le_sumBy PC.post _ _ _ h
  have := I.posts
  omega

theorem todo_move {s s' : St} {i : Nat} {p q : PC} (h : s.threads[i]? = some p) (ht : s'.threads = s.threads.set i q)
    (hm : s'.queue.length * 10 + s'.pool * 8 + q.rank < s.queue.length * 10 + s.pool * 8 + p.rank) : s'.todo < s.todo := by
  have e := sumBy_set PC.rank _ _ q _ h
  rw [← ht] at e
  unfold St.todo
  omega

theorem todo_sub {s : St} {i : Nat} (h : s.threads[i]? = some .sub) (w : Word) (b : Bool) :
    St.todo (St.set { s with word := w } i (if b = true then .tail else .check)) < s.todo := by
  cases b
  · exact todo_move h (q := .check) rfl (by simp [St.set, PC.rank])
  · exact todo_move h (q := .tail) rfl (by simp [St.set, PC.rank])

theorem todo_step {s s' : St} (I : Inv s) (hu : s.user = 0) (hs : Step s s') (hu' : s'.user = 0) : s'.todo < s.todo := by
  cases hs with
  | use i pc h hn hd => have := I.alive (.inr ⟨pc, List.mem_of_getElem? h, hn⟩); rw [hd] at this; cases this
  | useUser hu hd => omega
  | useJob hp hd => have := I.alive (.inl (by omega)); rw [hd] at this; cases this
  | copy hd hu => omega
  | drop hd hp => omega
  | keep i t hd h => simp at hu'
  | join hd hu => omega
  | interrupt hd hu => omega
  | post i t hd h hp => omega
  | refuse i t f hd h hf => have := noPost I hu h; simp [PC.post] at this
  | reload i t f hd h hf hl => have := noPost I hu h; simp [PC.post] at this
  | cas i t f hd h hf hl hw hb => have := noPost I hu h; simp [PC.post] at this
  | push i t b hd h => have := noPost I hu h; simp [PC.post] at this
  | unlock i b hd h => have := noPost I hu h; simp [PC.post] at this
  | addRef i hd h => have := noPost I hu h; simp [PC.post] at this
  | submit i hd h => have := noPost I hu h; simp [PC.post] at this
  | refused i hd h => have := noPost I hu h; simp [PC.post] at this
  | failRel i hd h => have := noPost I hu h; simp [PC.post] at this
  | failStop i hd h => have := noPost I hu h; simp [PC.post] at this
  | failCleanPop i t q hd h hq => have := noPost I hu h; simp [PC.post] at this
  | failCleanEnd i hd h hq => have := noPost I hu h; simp [PC.post] at this
  | start i hd h hp => exact todo_move h rfl (by simp [St.set, PC.rank]; omega)
  | check i hd h =>
    by_cases c : s.refs > 1
    · rw [if_pos c]; exact todo_move h rfl (by simp [St.set, PC.rank])
    · rw [if_neg c]; exact todo_move h rfl (by simp [St.set, PC.rank])
  | pop i t q hd h hq => exact todo_move h rfl (by simp [St.set, PC.rank, hq]; omega)
  | popNone i hd h hq => exact todo_move h rfl (by simp [St.set, PC.rank])
  | run i t hd h => exact todo_move h rfl (by simp [St.set, PC.rank])
  | done i t hd h => exact todo_move h rfl (by simp [St.set, PC.rank])
  | sub i hd h => exact todo_sub h _ _
  | tail i hd h =>
    by_cases c : s.refs > 1
    · rw [if_pos c]; exact todo_move h rfl (by simp [St.set, PC.rank])
    · rw [if_neg c]; exact todo_move h rfl (by simp [St.set, PC.rank])
  | tail2 i hd h =>
    generalize (s.word.intr || (s.word.stop && decide (s.word.cnt = 0))) = b
    cases b
    · exact todo_move h (q := .rel) rfl (by simp [St.set, PC.rank])
    · exact todo_move h (q := .clean) rfl (by simp [St.set, PC.rank])
  | cleanPop i t q hd h hq => simp only [St.todo, hq, List.length_cons]; omega
  | cleanEnd i hd h hq => exact todo_move h rfl (by simp [St.set, PC.rank])
  | rel i hd h =>
    refine todo_move h (q := .idle) (by simp [St.set, release_threads]) ?_
    simp only [St.set, PC.rank, release_pool]
    unfold St.release; split
    · simp; omega
    · simp

/-- When the last user has gone, the work left is bounded: some measure decreases in every step that does not give the runner a new user (`GetCurrent` in a task). -/
theorem C109_terminates : ∃ μ : St → Nat, ∀ s s', Reach s → s.user = 0 → Step s s' → s'.user = 0 → μ s' < μ s :=
  ⟨St.todo, fun _ _ h hu hs hu' => todo_step (inv_reach h) hu hs hu'⟩

/-- steps without a new user -/
inductive Alone : St → St → Prop
  | refl (s : St) : Alone s s
  | step {s s' s'' : St} : Alone s s' → Step s' s'' → s''.user = 0 → Alone s s''

/-- and it does not get stuck before the runner is destroyed -/
theorem C109_progress {s : St} (h : Reach s) (hu : s.user = 0) (hd : s.dead = false) (ht : s.threads ≠ []) : ∃ s', Step s s' ∧ s'.user = 0 := by
  have I := inv_reach h
  have h1 := I.refs
  have hne : s.refs ≠ 0 := fun e => by have := I.dead.2 e; rw [hd] at this; cases this
  by_cases hall : ∀ pc ∈ s.threads, pc = .idle
  · have : sumBy PC.holds s.threads = 0 := by
      rw [sumBy_eq_zero]; intro x hx; rw [hall x hx]; rfl
    cases e : s.threads with
    | nil => exact absurd e ht
    | cons a l =>
      have ha : a = .idle := hall a (by rw [e]; exact List.mem_cons_self)
      exact ⟨_, .start s 0 hd (by rw [e, ha]; rfl) (by omega), hu⟩
  · have : ∃ pc ∈ s.threads, pc ≠ .idle := by
      apply Classical.byContradiction
      intro hc
      exact hall fun pc hm => Classical.byContradiction fun hn => hc ⟨pc, hm, hn⟩
    obtain ⟨pc, hm, hn⟩ := this
    obtain ⟨i, hi⟩ := List.getElem?_of_mem hm
    have hp := noPost I hu hi
    cases pc with
    | idle => exact absurd rfl hn
    | check => exact ⟨_, .check s i hd hi, hu⟩
    | pop =>
      cases hq : s.queue with
      | nil => exact ⟨_, .popNone s i hd hi hq, hu⟩
      | cons t q => exact ⟨_, .pop s i t q hd hi hq, hu⟩
    | task t => exact ⟨_, .run s i t hd hi, hu⟩
    | run t => exact ⟨_, .done s i t hd hi, hu⟩
    | sub => exact ⟨_, .sub s i hd hi, (sub_user _ _ _ _).trans hu⟩
    | tail => exact ⟨_, .tail s i hd hi, hu⟩
    | tail2 => exact ⟨_, .tail2 s i hd hi, hu⟩
    | clean =>
      cases hq : s.queue with
      | nil => exact ⟨_, .cleanEnd s i hd hi hq, hu⟩
      | cons t q => exact ⟨_, .cleanPop s i t q hd hi hq, hu⟩
    | rel => exact ⟨_, .rel s i hd hi, by simp [St.set, release_user]; exact hu⟩
    | _ => simp [PC.post] at hp

theorem alone_trans {a b c : St} (h1 : Alone a b) (h2 : Alone b c) : Alone a c := by
  induction h2 with
  | refl => exact h1
  | step _ hs hu ih => exact .step ih hs hu

theorem step_len {s s' : St} (hs : Step s s') : s'.threads.length = s.threads.length := by
  cases hs <;> simp [St.set, release_threads]

/-- So a runner given up by its users is destroyed in the end, and then each of its tasks has been run or cancelled. -/
theorem C109_released_partial {s : St} (h : Reach s) (hu : s.user = 0) (ht : s.threads ≠ []) :
    ∃ s', Alone s s' ∧ s'.dead = true ∧ ∀ t, s'.posted.count t = s'.ran.count t + s'.cancelled.count t := by
  generalize hn : s.todo = n
  induction n using Nat.strongRecOn generalizing s with
  | ind n ih =>
    cases hd : s.dead with
    | true => exact ⟨s, .refl s, hd, fun t => (C109_each_once_partial h t).2 hd⟩
    | false =>
      obtain ⟨s1, hs, hu1⟩ := C109_progress h hu hd ht
      have hlt := todo_step (inv_reach h) hu hs hu1
      have hl := step_len hs
      have ht1 : s1.threads ≠ [] := fun e => by
        rw [e] at hl; exact ht (List.length_eq_zero_iff.1 hl.symm)
      obtain ⟨s', ha, r⟩ := ih s1.todo (by omega) (.step h hs) hu1 ht1 rfl
      exact ⟨s', alone_trans (.step (.refl s) hs hu1) ha, r⟩

/-- nobody but one holder, and no executor past its check -/
def Last (s : St) : Prop := s.user = 0 ∧ s.refs ≤ 1 ∧ ∀ pc ∈ s.threads, pc ≠ .pop ∧ ∀ t, pc ≠ .task t

theorem last_set {s : St} (L : Last s) (i : Nat) {q : PC} (hq : q ≠ .pop) (hq' : ∀ t, q ≠ .task t) : ∀ pc ∈ s.threads.set i q, pc ≠ .pop ∧ ∀ t, pc ≠ .task t := by
  intro pc hm
  rcases mem_set hm with e | e
  · subst e; exact ⟨hq, hq'⟩
  · exact L.2.2 pc e

theorem last_sub {s : St} (L : Last s) (i : Nat) (w : Word) (b : Bool) : Last (St.set { s with word := w } i (if b = true then .tail else .check)) := by
  refine ⟨L.1, L.2.1, ?_⟩
  cases b
  · exact last_set L i (q := .check) (by simp) (by simp)
  · exact last_set L i (q := .tail) (by simp) (by simp)

theorem last_step {s s' : St} (I : Inv s) (L : Last s) (hs : Step s s') (hu' : s'.user = 0) : Last s' ∧ s'.ran = s.ran := by
  have hu := L.1
  cases hs with
  | use i pc h hn hd => have := I.alive (.inr ⟨pc, List.mem_of_getElem? h, hn⟩); rw [hd] at this; cases this
  | useUser hu hd => omega
  | useJob hp hd => have := I.alive (.inl (by omega)); rw [hd] at this; cases this
  | copy hd hu => omega
  | drop hd hp => omega
  | keep i t hd h => simp at hu'
  | join hd hu => omega
  | interrupt hd hu => omega
  | post i t hd h hp => omega
  | refuse i t f hd h hf => have := noPost I hu h; simp [PC.post] at this
  | reload i t f hd h hf hl => have := noPost I hu h; simp [PC.post] at this
  | cas i t f hd h hf hl hw hb => have := noPost I hu h; simp [PC.post] at this
  | push i t b hd h => have := noPost I hu h; simp [PC.post] at this
  | unlock i b hd h => have := noPost I hu h; simp [PC.post] at this
  | addRef i hd h => have := noPost I hu h; simp [PC.post] at this
  | submit i hd h => have := noPost I hu h; simp [PC.post] at this
  | refused i hd h => have := noPost I hu h; simp [PC.post] at this
  | failRel i hd h => have := noPost I hu h; simp [PC.post] at this
  | failStop i hd h => have := noPost I hu h; simp [PC.post] at this
  | failCleanPop i t q hd h hq => have := noPost I hu h; simp [PC.post] at this
  | failCleanEnd i hd h hq => have := noPost I hu h; simp [PC.post] at this
  | start i hd h hp => exact ⟨⟨L.1, L.2.1, last_set L i (by simp) (by simp)⟩, rfl⟩
  | check i hd h =>
    have := L.2.1
    rw [if_neg (by omega)]
    exact ⟨⟨L.1, L.2.1, last_set L i (by simp) (by simp)⟩, rfl⟩
  | pop i t q hd h hq => exact absurd rfl (L.2.2 _ (List.mem_of_getElem? h)).1
  | popNone i hd h hq => exact absurd rfl (L.2.2 _ (List.mem_of_getElem? h)).1
  | run i t hd h => exact absurd rfl ((L.2.2 _ (List.mem_of_getElem? h)).2 t)
  | done i t hd h => exact ⟨⟨L.1, L.2.1, last_set L i (by simp) (by simp)⟩, rfl⟩
  | sub i hd h => exact ⟨last_sub L i _ _, sub_ran _ _ _ _⟩
  | tail i hd h =>
    have := L.2.1
    rw [if_neg (by omega)]
    exact ⟨⟨L.1, L.2.1, last_set L i (by simp) (by simp)⟩, rfl⟩
  | tail2 i hd h =>
    generalize (s.word.intr || (s.word.stop && decide (s.word.cnt = 0))) = b
    refine ⟨⟨L.1, L.2.1, ?_⟩, rfl⟩
    cases b
    · exact last_set L i (q := .rel) (by simp) (by simp)
    · exact last_set L i (q := .clean) (by simp) (by simp)
  | cleanPop i t q hd h hq => exact ⟨⟨L.1, L.2.1, L.2.2⟩, rfl⟩
  | cleanEnd i hd h hq => exact ⟨⟨L.1, L.2.1, last_set L i (by simp) (by simp)⟩, rfl⟩
  | rel i hd h =>
    refine ⟨⟨by simp [St.set, release_user]; exact hu, ?_, ?_⟩, by simp [St.set, release_ran]⟩
    · have := L.2.1
      simp only [St.set, release_refs]; omega
    · simp only [St.set, release_threads]; exact last_set L i (by simp) (by simp)

/-- What the comment at line 134-136 promises, as far as it holds: when the last user leaves, exactly one holder is left and it is not between its check and the task, then no further task is started –
whatever is still queued will be cancelled. -/
theorem C109_abandoned_partial {s s' : St} (h : Reach s) (hu : s.user = 0) (hr : s.refs ≤ 1)
    (hp : ∀ (i : Nat) (pc : PC), s.threads[i]? = some pc → pc ≠ .pop ∧ ∀ t, pc ≠ .task t) (ha : Alone s s') : s'.ran = s.ran := by
  have key : Reach s' ∧ Last s' ∧ s'.ran = s.ran := by
    induction ha with
    | refl =>
      refine ⟨h, ⟨hu, hr, fun pc hm => ?_⟩, rfl⟩
      obtain ⟨i, hi⟩ := List.getElem?_of_mem hm
      exact hp i pc hi
    | step _ hs hu' ih =>
      have := last_step (inv_reach ih.1) ih.2.1 hs hu'
      exact ⟨.step ih.1 hs, this.1, by rw [this.2, ih.2.2]⟩
  exact key.2.2

end Verif.Sequenced.Life
