import Verif.Parallel.Model
/-!
# Model of the life of a `ParallelTaskRunnerImpl` object (src/YY/Base/Threading/ParallelTaskRunnerImpl.hpp)

The executors of the runner do not hold a reference each: `PostTaskInternal` takes one reference when `uParallelCurrent` leaves 0 (270-273) and hands the bare pointer to the pool
(`PostTaskInternalWithoutAddRef`, ThreadPool.Windows.h 18-32); `SubtractWakeupOnce` gives it back when `uParallelCurrent` returns to 0 (384-388).

One runner, any number of threads. One step = one access of `TaskRunnerFlags`, of the reference count or of the queue. The word and the conditions on it are those of `Verif.Parallel.Model`.

Simplifications: of the queue only the number of tasks is kept, `Push` and the unlocking after it (257-258) are one step, `PopTask` (292-305) is one step; users of the runner own `user` references, and a
call of `PostTask` is made by an owner, who keeps the reference during the call; a task may get a reference by `GetCurrent` (C94). The count does not overflow. The object is destroyed when the count
reaches 0 (RefPtr.h 51-63); after that every access is undefined behaviour: it ends the execution and `bad` records where it happened. (The thread's weak pointer keeps the memory, not the object, and
only until line 360, before the accesses at 317-323.)
-/
namespace Verif.Parallel.Life
open Verif.Common Verif.Parallel

inductive PC where
  | idle
  /-- in `PostTaskInternal`, the check of `bStopWakeup` (226) is passed, next the compare-exchange (254) -/
  | posting
  /-- next `Push` and `BitReset` (257-258); `raised`: `uParallelCurrent` was increased, `first`: it was 0 before -/
  | pushing (raised first : Bool)
  /-- next `AddRef` (272) -/
  | adding
  /-- next `PostTaskInternalWithoutAddRef` (274) -/
  | schedule
  /-- refused; next `BitSet` (278), `Decrement` (279), `Release` (282) -/
  | failStop
  | failDec
  | failRel
  /-- executor: next `IsShared` (338), `bInterrupt` (341), `PopTask` (344) -/
  | check
  | intr
  | pop
  /-- a task runs (348) -/
  | run
  /-- next the compare-exchange of `SubtractWakeupOnce` (366-382) -/
  | sub
  /-- next `Release` (387), then `return !_bEixt`; `out`: the value of `_bEixt` -/
  | rel (out : Bool)
  /-- loop left by `break`; next `Decrement` (358) -/
  | brk
  /-- `ExecuteTaskRunner` has returned; next `IsShared` (317) -/
  | tail
  /-- next the flags (318-319) -/
  | tail2
  /-- next `BitSet` of `CleanupTaskQueue` (395) -/
  | clean
  /-- next its loop and `Exchange` (397-407) -/
  | clean2
deriving DecidableEq

structure St where
  word : Word := {}
  /-- tasks in the queue -/
  q : Nat := 0
  /-- jobs in the pool -/
  pool : Nat := 0
  /-- `uRef` -/
  refs : Nat := 1
  /-- references owned by users -/
  user : Nat := 1
  threads : List PC
  /-- the destructor has run -/
  dead : Bool := false
  /-- where the destroyed object was used (`idle`: by a user) -/
  bad : Option PC := none
  /-- observation: how often the last executor left through line 358 -/
  leaked : Nat := 0

/-- in `PostTaskInternal` -/
def PC.post : PC → Nat
  | .posting | .pushing _ _ | .adding | .schedule | .failStop | .failDec | .failRel => 1
  | _ => 0

/-- calls of `PostTask` going on -/
def St.posts (s : St) : Nat := sumBy PC.post s.threads

/-- `Release` (RefPtr.h 51-63): at 0 the destructor runs -/
def St.release (s : St) : St := { s with refs := s.refs - 1, dead := decide (s.refs - 1 = 0) }

def St.set (s : St) (i : Nat) (pc : PC) : St := { s with threads := s.threads.set i pc }

/-- Steps of a runner with effective maximum `mx`. `late = true` describes only those executions in which the last reference of the users is given up while no executor is active. -/
inductive Step (mx : Nat) (late : Bool) : St → St → Prop
  /-- any access of a destroyed runner -/
  | use (s : St) (i : Nat) (pc : PC) : s.threads[i]? = some pc → pc ≠ .idle → s.dead = true → Step mx late s { s with bad := some pc }
  | useUser (s : St) : 0 < s.user → s.dead = true → Step mx late s { s with bad := some .idle }
  /-- users -/
  | copy (s : St) : s.dead = false → 0 < s.user → Step mx late s { s with refs := s.refs + 1, user := s.user + 1 }
  | drop (s : St) : s.dead = false → s.posts < s.user → (late = true → s.user = 1 → s.pool = 0 ∧ ∀ pc ∈ s.threads, pc = .idle) →
      Step mx late s { s.release with user := s.user - 1 }
  /-- a task takes a reference of its runner (`GetCurrent`, TryAddRef) -/
  | keep (s : St) (i : Nat) : s.dead = false → s.threads[i]? = some .run → Step mx late s { s with refs := s.refs + 1, user := s.user + 1 }
  /-- `Join` (200), `Interrupt` (218) -/
  | join (s : St) : s.dead = false → 0 < s.user → Step mx late s { s with word := { s.word with stop := true } }
  | interrupt (s : St) : s.dead = false → 0 < s.user → Step mx late s { s with word := { s.word with stop := true, intr := true } }
  /-- `PostTaskInternal` by an owner -/
  | post (s : St) (i : Nat) : s.dead = false → s.threads[i]? = some .idle → s.posts < s.user → s.word.stop = false → Step mx late s (s.set i .posting)
  | cas (s : St) (i : Nat) : s.dead = false → s.threads[i]? = some .posting → s.word.lock = false →
      Step mx late s ({ s with word := { s.word with lock := true, cnt := wrap (s.word.cnt + 1), par := s.word.par + (raises mx s.word).toNat } }.set i
        (.pushing (raises mx s.word) (decide (s.word.par = 0))))
  | push (s : St) (i : Nat) (raised first : Bool) : s.dead = false → s.threads[i]? = some (.pushing raised first) →
      Step mx late s ({ s with q := s.q + 1, word := { s.word with lock := false } }.set i (if raised then (if first then .adding else .schedule) else .idle))
  | addRef (s : St) (i : Nat) : s.dead = false → s.threads[i]? = some .adding → Step mx late s ({ s with refs := s.refs + 1 }.set i .schedule)
  | schedule (s : St) (i : Nat) : s.dead = false → s.threads[i]? = some .schedule → Step mx late s ({ s with pool := s.pool + 1 }.set i .idle)
  | refused (s : St) (i : Nat) : s.dead = false → s.threads[i]? = some .schedule → Step mx late s (s.set i .failStop)
  | failStop (s : St) (i : Nat) : s.dead = false → s.threads[i]? = some .failStop → Step mx late s ({ s with word := { s.word with stop := true } }.set i .failDec)
  | failDec (s : St) (i : Nat) : s.dead = false → s.threads[i]? = some .failDec →
      Step mx late s ({ s with word := { s.word with par := s.word.par - 1 } }.set i (if s.word.par - 1 = 0 then .failRel else .idle))
  | failRel (s : St) (i : Nat) : s.dead = false → s.threads[i]? = some .failRel → Step mx late s (s.release.set i .idle)
  /-- a thread of the pool takes a job -/
  | start (s : St) (i : Nat) : s.threads[i]? = some .idle → 0 < s.pool → Step mx late s ({ s with pool := s.pool - 1 }.set i .check)
  | check (s : St) (i : Nat) : s.dead = false → s.threads[i]? = some .check → Step mx late s (s.set i (if s.refs > 1 then .intr else .brk))
  | intr (s : St) (i : Nat) : s.dead = false → s.threads[i]? = some .intr → Step mx late s (s.set i (if s.word.intr then .brk else .pop))
  | pop (s : St) (i : Nat) : s.dead = false → s.threads[i]? = some .pop → s.word.pop = false → 0 < s.q → Step mx late s ({ s with q := s.q - 1 }.set i .run)
  | popNone (s : St) (i : Nat) : s.dead = false → s.threads[i]? = some .pop → s.word.pop = false → s.q = 0 → Step mx late s (s.set i .brk)
  | done (s : St) (i : Nat) : s.dead = false → s.threads[i]? = some .run → Step mx late s (s.set i .sub)
  | sub (s : St) (i : Nat) : s.dead = false → s.threads[i]? = some .sub →
      Step mx late s ({ s with word := { s.word with cnt := wrap (s.word.cnt - 1), par := s.word.par - (leaves s.word).toNat } }.set i
        (if s.word.par - (leaves s.word).toNat = 0 then .rel (leaves s.word) else if leaves s.word then .tail else .check))
  | rel (s : St) (i : Nat) (out : Bool) : s.dead = false → s.threads[i]? = some (.rel out) → Step mx late s (s.release.set i (if out then .tail else .check))
  | brk (s : St) (i : Nat) : s.dead = false → s.threads[i]? = some .brk →
      Step mx late s ({ s with word := { s.word with par := s.word.par - 1 }, leaked := s.leaked + (if s.word.par - 1 = 0 then 1 else 0) }.set i .tail)
  | tail (s : St) (i : Nat) : s.dead = false → s.threads[i]? = some .tail → Step mx late s (s.set i (if s.refs > 1 then .tail2 else .clean))
  | tail2 (s : St) (i : Nat) : s.dead = false → s.threads[i]? = some .tail2 →
      Step mx late s (s.set i (if s.word.intr || (s.word.stop && decide (s.word.cnt = 0)) then .clean else .idle))
  | clean (s : St) (i : Nat) : s.dead = false → s.threads[i]? = some .clean →
      Step mx late s ({ s with word := { s.word with pop := true } }.set i (if s.word.pop then .idle else .clean2))
  | clean2 (s : St) (i : Nat) : s.dead = false → s.threads[i]? = some .clean2 →
      Step mx late s ({ s with q := 0, word := { stop := true, intr := true, par := s.word.par } }.set i .idle)

/-- executions: a user has created the runner -/
inductive Reach (mx : Nat) (late : Bool) : St → Prop
  | init (n : Nat) : Reach mx late { threads := List.replicate n .idle }
  | step {s s' : St} : Reach mx late s → Step mx late s s' → Reach mx late s'

/-! ### Invariant -/

/-- the reference shared by the executors -/
def group (n : Nat) : Nat := match n with | 0 => 0 | _ + 1 => 1
theorem group_zero {n : Nat} (h : n = 0) : group n = 0 := by subst h; rfl
theorem group_pos {n : Nat} (h : 0 < n) : group n = 1 := by cases n with | zero => omega | succ n => rfl

/-- counted in `uParallelCurrent` -/
def PC.counted : PC → Nat
  | .pushing true _ | .adding | .schedule | .failStop | .failDec | .check | .intr | .pop | .run | .sub | .brk => 1
  | .rel false => 1
  | _ => 0

/-- the `AddRef` of line 272 is still to come -/
def PC.adds : PC → Nat
  | .pushing true true | .adding => 1
  | _ => 0

/-- the `Release` of line 282 or 387 is still to come -/
def PC.rels : PC → Nat
  | .failRel | .rel _ => 1
  | _ => 0

/-- after the executor has stopped counting -/
def PC.after : PC → Bool
  | .tail | .tail2 | .clean | .clean2 => true
  | _ => false

structure Inv (s : St) : Prop where
  par : s.word.par = sumBy PC.counted s.threads + s.pool
  refs : s.refs + sumBy PC.adds s.threads = s.user + group s.word.par + sumBy PC.rels s.threads + s.leaked
  posts : s.posts ≤ s.user
  adds : sumBy PC.adds s.threads ≤ 1
  dead : s.dead = decide (s.refs = 0)
  bad : ∀ pc, s.bad = some pc → pc.after = true
  out : ∀ (i : Nat), s.threads[i]? ≠ some (.rel false)

theorem adds_counted (pc : PC) : pc.adds ≤ pc.counted := by
  cases pc with
  | pushing r f => cases r <;> cases f <;> simp [PC.adds, PC.counted]
  | rel o => cases o <;> simp [PC.adds, PC.counted]
  | _ => simp [PC.adds, PC.counted]

theorem adds_post (pc : PC) : pc.adds ≤ pc.post := by
  cases pc with
  | pushing r f => cases r <;> cases f <;> simp [PC.adds, PC.post]
  | _ => simp [PC.adds, PC.post]

theorem sum_mono {f g : PC → Nat} (h : ∀ pc, f pc ≤ g pc) (l : List PC) : sumBy f l ≤ sumBy g l := by
  induction l with
  | nil => simp
  | cons x l ih => have := h x; simp; omega

/-- the runner exists while it has a user, a counted executor or an outstanding `Release` -/
theorem Inv.live {s : St} (h : Inv s) (hx : 0 < s.user ∨ 0 < s.word.par ∨ 0 < sumBy PC.rels s.threads) : s.dead = false := by
  have h1 := h.par
  have h2 := h.refs
  have h3 := h.adds
  have h4 := sum_mono adds_counted s.threads
  have h5 := sum_mono adds_post s.threads
  have h6 := h.posts
  unfold St.posts at h6
  rw [h.dead]
  have : s.refs ≠ 0 := by
    intro e
    rw [e] at h2
    rcases Nat.eq_zero_or_pos s.word.par with hz | hz
    · rw [group_zero hz] at h2; omega
    · rw [group_pos hz] at h2; omega
  simpa using this

theorem Inv.init (n : Nat) : Inv { threads := List.replicate n .idle } := by
  have z : ∀ f : PC → Nat, f .idle = 0 → sumBy f (List.replicate n .idle) = 0 := by
    intro f e
    rw [sumBy_eq_zero]
    intro x hx
    rw [List.eq_of_mem_replicate hx, e]
  refine ⟨?_, ?_, ?_, ?_, rfl, fun pc e => ?_, fun i e => ?_⟩
  · show 0 = _ + 0; rw [z _ rfl]
  · show 1 + _ = 1 + group 0 + _ + 0
    rw [z _ rfl, z _ rfl]; rfl
  · show sumBy _ _ ≤ 1; rw [z _ rfl]; omega
  · show sumBy _ _ ≤ 1; rw [z _ rfl]; omega
  · cases e
  · have := List.mem_of_getElem? e
    cases List.eq_of_mem_replicate this

/-- what a step of thread `i` from `a` to `b` has to respect -/
theorem Inv.move {s s' : St} {i : Nat} {a b : PC} (h : Inv s) (e : s.threads[i]? = some a) (et : s'.threads = s.threads.set i b)
    (hbad : s'.bad = s.bad) (hb : b ≠ .rel false)
    (hdead : s'.dead = decide (s'.refs = 0))
    (hpar : s'.word.par + a.counted + s.pool = s.word.par + b.counted + s'.pool)
    (hrefs : s.word.par = sumBy PC.counted s.threads + s.pool → s'.refs + b.adds + s.user + group s.word.par + a.rels + s.leaked
      = s.refs + a.adds + s'.user + group s'.word.par + b.rels + s'.leaked)
    (hposts : s.posts ≤ s.user → s.posts + b.post ≤ s'.user + a.post)
    (hadds : b.adds ≤ a.adds ∨ s.word.par = 0) : Inv s' := by
  have c1 := sumBy_set PC.counted s.threads i b a e
  have c2 := sumBy_set PC.adds s.threads i b a e
  have c3 := sumBy_set PC.rels s.threads i b a e
  have c4 := sumBy_set PC.post s.threads i b a e
  have l1 := le_sumBy PC.counted s.threads i a e
  have l2 := le_sumBy PC.adds s.threads i a e
  have l3 := le_sumBy PC.rels s.threads i a e
  have l4 := le_sumBy PC.post s.threads i a e
  have hp := h.par
  have hr := h.refs
  have hpo := h.posts
  have ha := h.adds
  have hm := sum_mono adds_counted s.threads
  have hrefs := hrefs hp
  have q1 := hposts hpo
  have hb1 : b.adds ≤ 1 := by
    cases b with
    | pushing r f => cases r <;> cases f <;> simp [PC.adds]
    | _ => simp [PC.adds]
  unfold St.posts at hpo q1
  refine ⟨?_, ?_, ?_, ?_, hdead, ?_, ?_⟩
  · rw [et]; omega
  · rw [et]; omega
  · unfold St.posts; rw [et]; omega
  · rw [et]
    rcases hadds with hh | hh <;> omega
  · rw [hbad]; exact h.bad
  · rw [et]
    intro j ej
    rcases mem_set (List.mem_of_getElem? ej) with e' | hm'
    · exact hb e'.symm
    · obtain ⟨k, _, hk⟩ := List.getElem_of_mem hm'
      exact h.out k (by rw [List.getElem?_eq_getElem ‹_›, hk])

theorem posts_pos {s : St} {i : Nat} {a : PC} (e : s.threads[i]? = some a) (h : a.post = 1) : 1 ≤ s.posts := by
  have := le_sumBy PC.post s.threads i a e
  unfold St.posts; omega

theorem counted_pos {s : St} {i : Nat} {a : PC} (h : s.word.par = sumBy PC.counted s.threads + s.pool) (e : s.threads[i]? = some a) (h1 : a.counted = 1) : 0 < s.word.par := by
  have := le_sumBy PC.counted s.threads i a e
  omega

theorem Inv.step {s s' : St} {mx : Nat} {late : Bool} (h : Inv s) (hs : Step mx late s s') : Inv s' := by
  have hp := h.par
  cases hs with
  | use i pc e hn hd =>
    -- only what comes after the counted part may find the runner destroyed
    have ha : pc.after = true := by
      have hnl : ¬ (0 < s.user ∨ 0 < s.word.par ∨ 0 < sumBy PC.rels s.threads) := fun hx => by
        rw [h.live hx] at hd; cases hd
      have hu : s.user = 0 := by omega
      have h1 : ¬ 1 ≤ s.posts := by have := h.posts; omega
      have h2 : ¬ 0 < s.word.par := by omega
      have h3 : ¬ 0 < sumBy PC.rels s.threads := by omega
      cases pc with
      | idle => exact absurd rfl hn
      | rel o => exact absurd (by have := le_sumBy PC.rels s.threads i _ e; simp only [PC.rels] at this; omega) h3
      | check => exact absurd (counted_pos hp e rfl) h2
      | intr => exact absurd (counted_pos hp e rfl) h2
      | pop => exact absurd (counted_pos hp e rfl) h2
      | run => exact absurd (counted_pos hp e rfl) h2
      | sub => exact absurd (counted_pos hp e rfl) h2
      | brk => exact absurd (counted_pos hp e rfl) h2
      | posting => exact absurd (posts_pos e rfl) h1
      | pushing r f => exact absurd (posts_pos e rfl) h1
      | adding => exact absurd (posts_pos e rfl) h1
      | schedule => exact absurd (posts_pos e rfl) h1
      | failStop => exact absurd (posts_pos e rfl) h1
      | failDec => exact absurd (posts_pos e rfl) h1
      | failRel => exact absurd (posts_pos e rfl) h1
      | _ => rfl
    exact ⟨h.par, h.refs, h.posts, h.adds, h.dead, fun pc' e' => by cases e'; exact ha, h.out⟩
  | useUser hu hd =>
    rw [h.live (.inl hu)] at hd
    cases hd
  | copy hd hu =>
    have h2 := h.refs
    have h3 := h.posts
    refine ⟨h.par, ?_, ?_, h.adds, ?_, h.bad, h.out⟩
    · show s.refs + 1 + sumBy PC.adds s.threads = s.user + 1 + group s.word.par + sumBy PC.rels s.threads + s.leaked
      omega
    · show s.posts ≤ s.user + 1
      omega
    · show s.dead = decide (s.refs + 1 = 0)
      simp [hd]
  | drop hd hu hl =>
    have h2 := h.refs
    have hr : s.refs ≠ 0 := by have := h.dead; rw [hd] at this; simpa using this
    have hadd := h.adds
    refine ⟨h.par, ?_, ?_, h.adds, rfl, h.bad, h.out⟩
    · show s.refs - 1 + sumBy PC.adds s.threads = s.user - 1 + group s.word.par + sumBy PC.rels s.threads + s.leaked
      omega
    · show s.posts ≤ s.user - 1
      omega
  | keep i hd e =>
    have h2 := h.refs
    have h3 := h.posts
    refine ⟨h.par, ?_, ?_, h.adds, ?_, h.bad, h.out⟩
    · show s.refs + 1 + sumBy PC.adds s.threads = s.user + 1 + group s.word.par + sumBy PC.rels s.threads + s.leaked
      omega
    · show s.posts ≤ s.user + 1
      omega
    · show s.dead = decide (s.refs + 1 = 0)
      simp [hd]
  | join hd hu => exact ⟨h.par, h.refs, h.posts, h.adds, h.dead, h.bad, h.out⟩
  | interrupt hd hu => exact ⟨h.par, h.refs, h.posts, h.adds, h.dead, h.bad, h.out⟩
  | post i hd e hu hstop =>
    refine h.move e rfl rfl (by simp) h.dead ?_ ?_ ?_ ?_
    · simp [St.set, PC.counted]
    · intro _; simp [St.set, PC.adds, PC.rels]
    · intro _; simp [St.set, PC.post]; omega
    · exact .inl (by simp [PC.adds])
  | cas i hd e hl =>
    refine h.move e rfl rfl (by simp) h.dead ?_ ?_ ?_ ?_
    · cases hr : raises mx s.word <;> simp [St.set, PC.counted]
    · intro _
      cases hr : raises mx s.word with
      | false => simp [St.set, PC.adds, PC.rels]
      | true =>
        rcases Nat.eq_zero_or_pos s.word.par with hz | hz
        · have g1 := group_zero hz
          have g2 : group (s.word.par + 1) = 1 := rfl
          simp [St.set, PC.adds, PC.rels, hz]; simp [group]; omega
        · have g1 := group_pos hz
          have g2 : group (s.word.par + 1) = 1 := rfl
          have hz' : s.word.par ≠ 0 := by omega
          simp [St.set, PC.adds, PC.rels, hz', g1, g2]
    · intro hh; simp [St.set, PC.post]; omega
    · by_cases hz : s.word.par = 0
      · exact .inr hz
      · refine .inl ?_
        cases hr : raises mx s.word <;> simp [PC.adds, hz]
  | push i r f hd e =>
    refine h.move e rfl rfl ?_ h.dead ?_ ?_ ?_ ?_
    · cases r <;> cases f <;> simp
    · cases r <;> cases f <;> simp [St.set, PC.counted]
    · intro _; cases r <;> cases f <;> simp [St.set, PC.adds, PC.rels]
    · intro hh; cases r <;> cases f <;> simp [St.set, PC.post] <;> omega
    · refine .inl ?_
      cases r <;> cases f <;> simp [PC.adds]
  | addRef i hd e =>
    refine h.move e rfl rfl (by simp) ?_ ?_ ?_ ?_ ?_
    · show s.dead = decide (s.refs + 1 = 0)
      simp [hd]
    · simp [St.set, PC.counted]
    · intro _; simp [St.set, PC.adds, PC.rels]
    · intro hh; simp [St.set, PC.post]; omega
    · exact .inl (by simp [PC.adds])
  | schedule i hd e =>
    refine h.move e rfl rfl (by simp) h.dead ?_ ?_ ?_ ?_
    · simp [St.set, PC.counted]; omega
    · intro _; simp [St.set, PC.adds, PC.rels]
    · intro hh; simp [St.set, PC.post]; omega
    · exact .inl (by simp [PC.adds])
  | refused i hd e =>
    refine h.move e rfl rfl (by simp) h.dead ?_ ?_ ?_ ?_
    · simp [St.set, PC.counted]
    · intro _; simp [St.set, PC.adds, PC.rels]
    · intro hh; simp [St.set, PC.post]; omega
    · exact .inl (by simp [PC.adds])
  | failStop i hd e =>
    refine h.move e rfl rfl (by simp) h.dead ?_ ?_ ?_ ?_
    · simp [St.set, PC.counted]
    · intro _; simp [St.set, PC.adds, PC.rels]
    · intro hh; simp [St.set, PC.post]; omega
    · exact .inl (by simp [PC.adds])
  | failDec i hd e =>
    have hpos := counted_pos hp e rfl
    refine h.move e rfl rfl ?_ h.dead ?_ ?_ ?_ ?_
    · split <;> simp
    · split <;> simp [St.set, PC.counted] <;> omega
    · intro _
      have g1 := group_pos hpos
      by_cases hz : s.word.par - 1 = 0
      · have g2 := group_zero hz
        simp [St.set, PC.adds, PC.rels, hz, g1]; simp [group]; try omega
      · have g2 := group_pos (Nat.pos_of_ne_zero hz)
        simp [St.set, PC.adds, PC.rels, hz, g1, g2]
    · intro hh; split <;> simp [St.set, PC.post] <;> omega
    · refine .inl ?_
      split <;> simp [PC.adds]
  | failRel i hd e =>
    have hr : s.refs ≠ 0 := by have := h.dead; rw [hd] at this; simpa using this
    refine h.move e rfl rfl (by simp) rfl ?_ ?_ ?_ ?_
    · simp [St.set, St.release, PC.counted]
    · intro _; simp [St.set, St.release, PC.adds, PC.rels]; omega
    · intro hh; simp [St.set, St.release, PC.post]; omega
    · exact .inl (by simp [PC.adds])
  | start i e hpool =>
    refine h.move e rfl rfl (by simp) h.dead ?_ ?_ ?_ ?_
    · simp [St.set, PC.counted]; omega
    · intro _; simp [St.set, PC.adds, PC.rels]
    · intro hh; simp [St.set, PC.post]; omega
    · exact .inl (by simp [PC.adds])
  | check i hd e =>
    refine h.move e rfl rfl ?_ h.dead ?_ ?_ ?_ ?_
    · split <;> simp
    · split <;> simp [St.set, PC.counted]
    · intro _; split <;> simp [St.set, PC.adds, PC.rels]
    · intro hh; split <;> simp [St.set, PC.post] <;> omega
    · refine .inl ?_
      split <;> simp [PC.adds]
  | intr i hd e =>
    refine h.move e rfl rfl ?_ h.dead ?_ ?_ ?_ ?_
    · split <;> simp
    · split <;> simp [St.set, PC.counted]
    · intro _; split <;> simp [St.set, PC.adds, PC.rels]
    · intro hh; split <;> simp [St.set, PC.post] <;> omega
    · refine .inl ?_
      split <;> simp [PC.adds]
  | pop i hd e hpop hq =>
    refine h.move e rfl rfl (by simp) h.dead ?_ ?_ ?_ ?_
    · simp [St.set, PC.counted]
    · intro _; simp [St.set, PC.adds, PC.rels]
    · intro hh; simp [St.set, PC.post]; omega
    · exact .inl (by simp [PC.adds])
  | popNone i hd e hpop hq =>
    refine h.move e rfl rfl (by simp) h.dead ?_ ?_ ?_ ?_
    · simp [St.set, PC.counted]
    · intro _; simp [St.set, PC.adds, PC.rels]
    · intro hh; simp [St.set, PC.post]; omega
    · exact .inl (by simp [PC.adds])
  | done i hd e =>
    refine h.move e rfl rfl (by simp) h.dead ?_ ?_ ?_ ?_
    · simp [St.set, PC.counted]
    · intro _; simp [St.set, PC.adds, PC.rels]
    · intro hh; simp [St.set, PC.post]; omega
    · exact .inl (by simp [PC.adds])
  | sub i hd e =>
    have hpos := counted_pos hp e rfl
    cases hl : leaves s.word with
    | false =>
      have hz : ¬ s.word.par - 0 = 0 := by omega
      refine h.move (b := .check) e ?_ rfl (by simp) h.dead ?_ ?_ ?_ ?_
      · simp [St.set, Nat.ne_of_gt hpos]
      · simp [St.set, PC.counted]
      · intro _; simp [St.set, PC.adds, PC.rels]
      · intro hh; simp [St.set, PC.post]; omega
      · exact .inl (by simp [PC.adds])
    | true =>
      by_cases hz : s.word.par - 1 = 0
      · refine h.move (b := .rel true) e ?_ rfl (by simp) h.dead ?_ ?_ ?_ ?_
        · simp [St.set, hz]
        · simp [St.set, PC.counted]; omega
        · intro _; simp only [St.set, PC.adds, PC.rels, Bool.toNat_true, group_pos hpos]; (first | rw [group_zero hz] | rw [group_pos (Nat.pos_of_ne_zero hz)]); try omega
        · intro hh; simp [St.set, PC.post]; omega
        · exact .inl (by simp [PC.adds])
      · refine h.move (b := .tail) e ?_ rfl (by simp) h.dead ?_ ?_ ?_ ?_
        · simp [St.set, hz]
        · simp [St.set, PC.counted]; omega
        · intro _; simp only [St.set, PC.adds, PC.rels, Bool.toNat_true, group_pos hpos]; (first | rw [group_zero hz] | rw [group_pos (Nat.pos_of_ne_zero hz)]); try omega
        · intro hh; simp [St.set, PC.post]; omega
        · exact .inl (by simp [PC.adds])
  | rel i out hd e =>
    have hr : s.refs ≠ 0 := by have := h.dead; rw [hd] at this; simpa using this
    have ho : out = true := by
      cases out
      · exact absurd e (h.out i)
      · rfl
    subst ho
    refine h.move e rfl rfl (by simp) rfl ?_ ?_ ?_ ?_
    · simp [St.set, St.release, PC.counted]
    · intro _; simp [St.set, St.release, PC.adds, PC.rels]; omega
    · intro hh; simp [St.set, St.release, PC.post]; omega
    · exact .inl (by simp [PC.adds])
  | brk i hd e =>
    have hpos := counted_pos hp e rfl
    refine h.move e rfl rfl (by simp) h.dead ?_ ?_ ?_ ?_
    · simp [St.set, PC.counted]; omega
    · intro _
      have g1 := group_pos hpos
      by_cases hz : s.word.par - 1 = 0
      · have g2 := group_zero hz
        simp [St.set, PC.adds, PC.rels, hz, g1]; simp [group]; try omega
      · have g2 := group_pos (Nat.pos_of_ne_zero hz)
        simp [St.set, PC.adds, PC.rels, hz, g1, g2]
    · intro hh; simp [St.set, PC.post]; omega
    · exact .inl (by simp [PC.adds])
  | tail i hd e =>
    refine h.move e rfl rfl ?_ h.dead ?_ ?_ ?_ ?_
    · split <;> simp
    · split <;> simp [St.set, PC.counted]
    · intro _; split <;> simp [St.set, PC.adds, PC.rels]
    · intro hh; split <;> simp [St.set, PC.post] <;> omega
    · refine .inl ?_
      split <;> simp [PC.adds]
  | tail2 i hd e =>
    refine h.move e rfl rfl ?_ h.dead ?_ ?_ ?_ ?_
    · split <;> simp
    · split <;> simp [St.set, PC.counted]
    · intro _; split <;> simp [St.set, PC.adds, PC.rels]
    · intro hh; split <;> simp [St.set, PC.post] <;> omega
    · refine .inl ?_
      split <;> simp [PC.adds]
  | clean i hd e =>
    refine h.move e rfl rfl ?_ h.dead ?_ ?_ ?_ ?_
    · split <;> simp
    · split <;> simp [St.set, PC.counted]
    · intro _; split <;> simp [St.set, PC.adds, PC.rels]
    · intro hh; split <;> simp [St.set, PC.post] <;> omega
    · refine .inl ?_
      split <;> simp [PC.adds]
  | clean2 i hd e =>
    refine h.move e rfl rfl (by simp) h.dead ?_ ?_ ?_ ?_
    · simp [St.set, PC.counted]
    · intro _; simp [St.set, PC.adds, PC.rels]
    · intro hh; simp [St.set, PC.post]; omega
    · exact .inl (by simp [PC.adds])

theorem Inv.reach {s : St} {mx : Nat} {late : Bool} (h : Reach mx late s) : Inv s := by
  induction h with
  | init n => exact .init n
  | step _ hs ih => exact ih.step hs

end Verif.Parallel.Life
