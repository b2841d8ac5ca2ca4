import Verif.Proxy.Model

/-!
# C69: the proxy runner

`C69_order`, `C69_once`, `C69_one_producer`, `C69_counts`: for all executions, with any nesting of tasks.
"No accepted task waits without a wake-up" is false as soon as a task takes messages (`C69_lost_fails`), and then
the runner is dead for ever (`C69_dead_for_ever_fails`). It is proved for tasks that do not
(`C69_no_lost_wakeup_partial`).
-/
namespace Verif.Proxy
open Verif.Common

theorem Steps.reach {n s t} (h : Steps n s t) (r : Reach n s) : Reach n t := by
  induction h with
  | refl => exact r
  | tail _ st ih => exact .step ih st

/-- In the queue but not yet counted. -/
def unc : Post → Nat
  | .pushed | .first _ => 1
  | _ => 0

/-- Between `BitSet` (156) and `Add` (167). -/
def inPush : Post → Nat
  | .locked | .pushed | .first _ => 1
  | _ => 0

/-- Calls of `ExecuteTaskRunner` that are not inside a task now: only the innermost can be. -/
def atWork : Pc → Nat
  | .wake | .loop | .sub | .fin => 1
  | _ => 0

/-- The place has the pending count one below. -/
def below : Pc → Nat
  | .sub | .fin => 1
  | _ => 0

structure Inv (s : St) : Prop where
  cnt : s.cnt + sumBy unc s.posts = s.queue.length + s.run.length + s.proc
  run : s.run.length + atWork s.pc = s.reent
  low : s.reent ≤ s.pend + below s.pc
  high : s.pend + s.proc ≤ s.cnt
  lock : sumBy inPush s.posts = if s.lock then 1 else 0
  ok : s.assertFailed = false
  order : s.started ++ s.queue = List.range s.nxt
  perm : (s.finished ++ s.run).Perm s.started

theorem inv_init : Inv {} := by
  constructor <;> simp [atWork]

theorem unc_le (l : List Post) : sumBy unc l ≤ sumBy inPush l := by
  induction l with
  | nil => simp
  | cons p l ih => cases p <;> simp [unc, inPush] <;> omega

theorem sum_set {f : Post → Nat} {l : List Post} {i : Nat} {y : Post} (h : l[i]? = some y) (x : Post) :
    sumBy f (l.set i x) + f y = sumBy f l + f x := sumBy_set f l i x y h

/-- a step of one poster that changes only its own place -/
local macro "poststep " p:ident x:term : tactic => `(tactic| (
  have h1 := sum_set (f := unc) $p $x
  have h2 := sum_set (f := inPush) $p $x
  simp only [unc, inPush] at h1 h2))

theorem inv_step {n s s'} (h : Inv s) (st : Step n s s') (hc : s'.cleaned = false) : Inv s' := by
  obtain ⟨a1, a2, a3, a4, a5, a6, a7, a8⟩ := h
  have hu := unc_le s.posts
  cases st with
  | call c => exact ⟨by simp only [sumBy_append]; simpa [unc] using a1, a2, a3, a4, by simp only [sumBy_append]; simpa [inPush] using a5, a6, a7, a8⟩
  | refuse i c p q => poststep p Post.refused; exact ⟨by dsimp only; omega, a2, a3, a4, by dsimp only; omega, a6, a7, a8⟩
  | pass i c p q => poststep p Post.spin; exact ⟨by dsimp only; omega, a2, a3, a4, by dsimp only; omega, a6, a7, a8⟩
  | lock i c p q =>
    poststep p Post.locked
    rw [q] at a5
    exact ⟨by dsimp only; omega, a2, a3, a4, by simp at *; omega, a6, a7, a8⟩
  | push i c p =>
    poststep p Post.pushed
    refine ⟨by simp; omega, a2, a3, a4, by dsimp only; omega, a6, ?_, a8⟩
    dsimp only; rw [← List.append_assoc, a7, List.range_succ]
  | read1 i c p =>
    poststep p (Post.first s.reent)
    exact ⟨by dsimp only; omega, a2, a3, a4, by dsimp only; omega, a6, a7, a8⟩
  | add1 i r c p =>
    have h1 := sum_set (f := unc) p (if needWake (s.cnt + 1) r then .wake else .ok)
    have h2 := sum_set (f := inPush) p (if needWake (s.cnt + 1) r then .wake else .ok)
    have e1 : unc (if needWake (s.cnt + 1) r then .wake else .ok) = 0 := by split <;> rfl
    have e2 : inPush (if needWake (s.cnt + 1) r then .wake else .ok) = 0 := by split <;> rfl
    rw [e1] at h1; rw [e2] at h2
    simp only [unc, inPush] at h1 h2
    exact ⟨by dsimp only; omega, a2, a3, by dsimp only; omega, by simp only [Bool.false_eq_true, if_false]; split at a5 <;> omega, a6, a7, a8⟩
  | add2 i c p =>
    poststep p (Post.second (s.cnt + 1))
    exact ⟨by dsimp only; omega, a2, a3, by dsimp only; omega, by simp only [Bool.false_eq_true, if_false]; split at a5 <;> omega, a6, a7, a8⟩
  | read2 i v c p =>
    have h1 := sum_set (f := unc) p (if needWake v s.reent then .wake else .ok)
    have h2 := sum_set (f := inPush) p (if needWake v s.reent then .wake else .ok)
    have e1 : unc (if needWake v s.reent then .wake else .ok) = 0 := by split <;> rfl
    have e2 : inPush (if needWake v s.reent then .wake else .ok) = 0 := by split <;> rfl
    rw [e1] at h1; rw [e2] at h2
    simp only [unc, inPush] at h1 h2
    exact ⟨by dsimp only; omega, a2, a3, a4, by dsimp only; omega, a6, a7, a8⟩
  | wake i c p => poststep p Post.ok; exact ⟨by dsimp only; omega, a2, a3, a4, by dsimp only; omega, a6, a7, a8⟩
  | join c => exact ⟨a1, a2, a3, a4, a5, a6, a7, a8⟩
  | interrupt c => exact ⟨a1, a2, a3, a4, a5, a6, a7, a8⟩
  | deliver c p q w => rw [p] at a2 a3; exact ⟨a1, a2, a3, a4, a5, a6, a7, a8⟩
  | none c p q w => rw [p] at a2 a3; exact ⟨a1, a2, a3, a4, a5, a6, a7, a8⟩
  | some c p q w =>
    rw [p] at a2 a3; simp only [atWork, below] at a2 a3
    exact ⟨a1, by simp [atWork]; omega, by simp [below]; omega, by dsimp only; omega, a5, a6, a7, a8⟩
  | more c p q =>
    rw [p] at a2 a3; simp only [atWork, below] at a2 a3
    exact ⟨a1, by simp [atWork]; omega, by simp [below]; omega, a4, a5, a6, a7, a8⟩
  | again c p => rw [p] at a2 a3; exact ⟨a1, a2, a3, a4, a5, a6, a7, a8⟩
  | intr c p q =>
    rw [p] at a2 a3; simp only [atWork, below] at a2 a3
    exact ⟨a1, a2, by simp [below]; omega, a4, a5, a6, a7, a8⟩
  | pop t q c p i e =>
    rw [p] at a2 a3; simp only [atWork, below] at a2 a3
    rw [e] at a1 a7
    refine ⟨by simp at *; omega, by simp [atWork]; omega, by simp [below]; omega, a4, a5, a6, by simpa using a7, ?_⟩
    exact (List.perm_middle (a := t) (l₁ := s.finished) (l₂ := s.run)).trans
      ((a8.cons t).trans (List.perm_append_comm (l₁ := [t]) (l₂ := s.started)))
  | empty c p i e =>
    rw [p] at a2 a3; simp only [atWork, below] at a2 a3
    rw [e] at a1; simp at a1; omega
  | finish t r c p e =>
    rw [p] at a2 a3; simp only [atWork, below] at a2 a3
    rw [e] at a1 a2 a8
    simp only [List.length_cons] at a1 a2
    refine ⟨by dsimp only; omega, ?_, ?_, by dsimp only; omega, a5, a6, a7, ?_⟩
    · dsimp only; split <;> simp [atWork] <;> omega
    · dsimp only; split <;> simp [below] <;> omega
    · dsimp only; rw [List.append_assoc]; exact a8
  | sub c p =>
    rw [p] at a2 a3; simp only [atWork, below] at a2 a3
    exact ⟨by dsimp only; omega, a2, a3, by dsimp only; omega, a5, a6, a7, a8⟩
  | fin c p =>
    rw [p] at a2 a3; simp only [atWork, below] at a2 a3
    exact ⟨a1, by simp [atWork]; omega, by simp [below]; omega, a4, a5, a6, a7, a8⟩
  | clean c p q => cases hc
  | back c p q => rw [p] at a2 a3; exact ⟨a1, a2, a3, a4, a5, a6, a7, a8⟩

theorem cleaned_mono {n s s'} (st : Step n s s') (h : s'.cleaned = false) : s.cleaned = false := by
  cases st <;> first | exact h | assumption

theorem reach_inv {n s} (h : Reach n s) (hc : s.cleaned = false) : Inv s := by
  induction h with
  | init => exact inv_init
  | step _ st ih => exact inv_step (ih (cleaned_mono st hc)) st hc

/-! ## All executions -/

/-- **C69** (order): until the clean-up, the tasks started are the first ones pushed, in the order of their push, none
twice; the rest waits in the queue. -/
theorem C69_order {n s} (h : Reach n s) (hc : s.cleaned = false) : s.started ++ s.queue = List.range s.nxt :=
  (reach_inv h hc).order

/-- **C69** (once): every started task is being executed or has finished, once. -/
theorem C69_once {n s} (h : Reach n s) (hc : s.cleaned = false) :
    (s.finished ++ s.run).Perm s.started ∧ s.started.Nodup := by
  have I := reach_inv h hc
  refine ⟨I.perm, ?_⟩
  have : (s.started ++ s.queue).Nodup := by rw [I.order]; exact List.nodup_range
  exact (List.nodup_append.1 this).1

/-- **C69** (one producer): at most one thread is inside `Push`. -/
theorem C69_one_producer {n s} (h : Reach n s) (hc : s.cleaned = false) (i j : Nat)
    (hi : s.posts[i]? = some .locked) (hj : s.posts[j]? = some .locked) : i = j := by
  have I := reach_inv h hc
  refine Classical.byContradiction fun hn => ?_
  have := add_le_sumBy inPush s.posts i j _ _ hn hi hj
  have := I.lock
  simp [inPush] at *; split at this <;> omega

/-- **C69** (counts): the assertion "there is a task" (272) never fails, at any depth of nesting; the counter in
the word is the number of tasks pushed and not yet accounted for as finished. -/
theorem C69_counts {n s} (h : Reach n s) (hc : s.cleaned = false) :
    s.assertFailed = false ∧ (s.pc = .loop → s.queue ≠ []) ∧
    s.cnt + sumBy unc s.posts = s.queue.length + s.run.length + s.proc := by
  have I := reach_inv h hc
  refine ⟨I.ok, ?_, I.cnt⟩
  intro hp he
  have h1 := I.cnt; have h2 := I.run; have h3 := I.low; have h4 := I.high
  rw [hp] at h2 h3; simp only [atWork, below] at h2 h3
  rw [he] at h1; simp at h1; omega

/-- **C69** (a message runs tasks): if user code dispatches a wake-up message while a counted task is in the queue and
the runner is not interrupted, the first task of the queue is started. -/
theorem C69_message_runs {n s} (h : Reach n s) (hc : s.cleaned = false) (hp : s.pc = .user) (hm : s.msgs ≠ 0)
    (hn : n = false → s.reent = 0) (hi : s.intr = false) (t : Nat) (q : List Nat) (hq : s.queue = t :: q)
    (hk : sumBy unc s.posts ≤ q.length) :
    ∃ u, Steps n s u ∧ u.started = s.started ++ [t] ∧ u.run = t :: s.run ∧ u.pc = .user := by
  have I := reach_inv h hc
  have h1 := I.cnt; have h2 := I.run; have h3 := I.low; have h4 := I.high
  rw [hp] at h2 h3; simp only [atWork, below] at h2 h3
  rw [hq] at h1; simp at h1
  have s1 := Step.deliver (nest := n) s hc hp hm hn
  by_cases e : s.pend = s.reent
  · have s2 := Step.some (nest := n) { s with msgs := s.msgs - 1, pc := .entry } hc rfl e (by dsimp only; omega)
    have s3 := Step.again (nest := n) _ (by exact hc) (by rfl) |> Steps.tail (.tail (.tail (.refl s) s1) s2)
    exact ⟨_, .tail s3 (Step.pop _ t q hc rfl hi hq), rfl, rfl, rfl⟩
  · have s2 := Step.more (nest := n) { s with msgs := s.msgs - 1, pc := .entry } hc rfl e
    have s3 := Step.again (nest := n) _ (by exact hc) (by rfl) |> Steps.tail (.tail (.tail (.refl s) s1) s2)
    exact ⟨_, .tail s3 (Step.pop _ t q hc rfl hi hq), rfl, rfl, rfl⟩

/-! ## Tasks that do not take messages -/

/-- About to send a wake-up message. -/
def fl : Post → Nat
  | .wake => 1
  | .second v => if v = 1 then 1 else 0
  | _ => 0

structure Inv2 (s : St) : Prop where
  reent : s.reent ≤ 1
  proc : s.reent = 0 → s.proc = 0
  pend : s.reent = 0 → s.pend = 0
  sub : below s.pc = 1 → s.pend = 0
  fin : s.pc = .fin → s.proc = 0
  entry : s.pc = .entry → s.reent = 0
  tail : s.pc = .tail → s.reent = 0
  msg : s.pc ≠ .entry → s.pc ≠ .wake → s.cnt ≠ 0 → 1 ≤ s.msgs + sumBy fl s.posts

theorem stop_mono {n s s'} (st : Step n s s') (h : s'.stop = false) : s.stop = false := by
  cases st <;> first | exact h | cases h

theorem intr_stop {n s} (h : Reach n s) (hs : s.stop = false) : s.intr = false := by
  induction h with
  | init => rfl
  | step r st ih =>
    have := ih (stop_mono st hs)
    cases st <;> first | exact this | cases hs

theorem inv2_step {s s'} (hr : Reach false s) (h : Inv2 s) (st : Step false s s') (hc : s'.cleaned = false)
    (hs : s'.stop = false) : Inv2 s' := by
  have I := reach_inv hr (cleaned_mono st hc)
  have hs0 := stop_mono st hs
  have hi := intr_stop hr hs0
  have h2 := I.run; have h3 := I.low; have h4 := I.high; have h1 := I.cnt
  obtain ⟨b1, b2, b3, b4, b5, b6, b7, b8⟩ := h
  cases st with
  | call c => exact ⟨b1, b2, b3, b4, b5, b6, b7, by simp only [sumBy_append]; simpa [fl] using b8⟩
  | refuse i c p q =>
    have := sum_set (f := fl) p Post.refused
    simp only [fl] at this
    exact ⟨b1, b2, b3, b4, b5, b6, b7, fun x y z => by have := b8 x y z; dsimp only; omega⟩
  | pass i c p q =>
    have := sum_set (f := fl) p Post.spin
    simp only [fl] at this
    exact ⟨b1, b2, b3, b4, b5, b6, b7, fun x y z => by have := b8 x y z; dsimp only; omega⟩
  | lock i c p q =>
    have := sum_set (f := fl) p Post.locked
    simp only [fl] at this
    exact ⟨b1, b2, b3, b4, b5, b6, b7, fun x y z => by have := b8 x y z; dsimp only; omega⟩
  | push i c p =>
    have := sum_set (f := fl) p Post.pushed
    simp only [fl] at this
    exact ⟨b1, b2, b3, b4, b5, b6, b7, fun x y z => by have := b8 x y z; dsimp only; omega⟩
  | read1 i c p =>
    have := sum_set (f := fl) p (Post.first s.reent)
    simp only [fl] at this
    exact ⟨b1, b2, b3, b4, b5, b6, b7, fun x y z => by have := b8 x y z; dsimp only; omega⟩
  | add1 i r c p =>
    have := sum_set (f := fl) p (if needWake (s.cnt + 1) r then .wake else .ok)
    simp only [fl] at this
    refine ⟨b1, b2, b3, b4, b5, b6, b7, fun x y z => ?_⟩
    dsimp only
    by_cases hz : s.cnt = 0
    · have e : needWake (s.cnt + 1) r = true := by simp [needWake, hz]; omega
      rw [if_pos e] at this ⊢
      simp only at this; omega
    · have := b8 x y hz; omega
  | add2 i c p =>
    have := sum_set (f := fl) p (Post.second (s.cnt + 1))
    simp only [fl] at this
    refine ⟨b1, b2, b3, b4, b5, b6, b7, fun x y z => ?_⟩
    dsimp only
    by_cases hz : s.cnt = 0
    · rw [if_pos (by omega)] at this; omega
    · have := b8 x y hz; omega
  | read2 i v c p =>
    have := sum_set (f := fl) p (if needWake v s.reent then .wake else .ok)
    simp only [fl] at this
    refine ⟨b1, b2, b3, b4, b5, b6, b7, fun x y z => ?_⟩
    have := b8 x y z
    dsimp only
    by_cases hv : v = 1
    · have e : needWake v s.reent = true := by simp [needWake, hv]; omega
      rw [if_pos e] at *
      simp only [hv, if_true] at *; omega
    · simp only [hv, if_false] at *; omega
  | wake i c p =>
    have := sum_set (f := fl) p Post.ok
    simp only [fl] at this
    refine ⟨b1, b2, b3, b4, b5, b6, b7, fun x y z => ?_⟩
    simp [hs0]; omega
  | join c => cases hs
  | interrupt c => cases hs
  | deliver c p q w => exact ⟨b1, b2, b3, by simp [below], by simp, fun _ => w rfl, by simp, by simp⟩
  | none c p q w =>
    have := b6 p; have := b2 this; have := b3 (b6 p)
    refine ⟨b1, b2, b3, by simp [below], by simp, by simp, fun _ => b6 p, fun _ _ z => ?_⟩
    dsimp only at z; omega
  | some c p q w =>
    have := b6 p
    refine ⟨by dsimp only; omega, by simp, by simp, by simp [below], by simp, by simp, by simp, by simp⟩
  | more c p q => have := b6 p; have := b3 this; omega
  | again c p =>
    refine ⟨b1, b2, b3, by simp [below], by simp, by simp, by simp, fun _ _ _ => ?_⟩
    simp [hs0]; omega
  | intr c p q => rw [hi] at q; cases q
  | pop t q c p i e =>
    exact ⟨b1, b2, b3, by simp [below], by simp, by simp, by simp, fun _ _ z => b8 (by rw [p]; simp) (by rw [p]; simp) z⟩
  | empty c p i e =>
    exact absurd e ((C69_counts hr c).2.1 p)
  | finish t r c p e =>
    rw [p] at h2 h3; simp only [atWork, below] at h2 h3
    rw [e] at h2; simp at h2
    refine ⟨b1, fun x => by dsimp only at x; omega, fun x => by dsimp only at x; omega, ?_, ?_, ?_, ?_, ?_⟩
    · dsimp only; split
      · intro _; omega
      · simp [below]
    · dsimp only; split <;> simp
    · dsimp only; split <;> simp
    · dsimp only; split <;> simp
    · intro _ _ z; exact b8 (by rw [p]; simp) (by rw [p]; simp) z
  | sub c p =>
    refine ⟨b1, fun x => rfl, b3, fun _ => b4 (by rw [p]; rfl), fun _ => rfl, by simp, by simp, fun _ _ z => ?_⟩
    dsimp only at z
    exact b8 (by rw [p]; simp) (by rw [p]; simp) (by omega)
  | fin c p =>
    have := b5 p; have := b4 (by rw [p]; rfl)
    refine ⟨by dsimp only; omega, fun _ => by assumption, fun _ => by assumption, by simp [below], by simp, by simp,
      fun _ => by dsimp only; omega, fun _ _ z => b8 (by rw [p]; simp) (by rw [p]; simp) z⟩
  | clean c p q => cases hc
  | back c p q =>
    exact ⟨b1, b2, b3, by simp [below], by simp, by simp, by simp, fun _ _ z => b8 (by rw [p]; simp) (by rw [p]; simp) z⟩

theorem reach_inv2 {s} (h : Reach false s) (hc : s.cleaned = false) (hs : s.stop = false) : Inv2 s := by
  induction h with
  | init => constructor <;> simp [below]
  | step r st ih => exact inv2_step r (ih (cleaned_mono st hc) (stop_mono st hs)) st hc hs

/-- **C69** (tasks do not take messages, runner not stopped): while the thread is in user code and a counted task waits in
the queue, a wake-up message is in the message queue or a poster is about to send one. With
`C69_message_runs`: the foreign loop only has to go on dispatching. -/
theorem C69_no_lost_wakeup_partial {s} (h : Reach false s) (hc : s.cleaned = false) (hs : s.stop = false)
    (hp : s.pc = .user) (hq : sumBy unc s.posts < s.queue.length) :
    s.msgs ≠ 0 ∨ ∃ p ∈ s.posts, p = .wake ∨ p = .second 1 := by
  have I := reach_inv h hc
  have J := reach_inv2 h hc hs
  have h1 := I.cnt
  have := J.msg (by rw [hp]; simp) (by rw [hp]; simp) (by omega)
  by_cases hm : s.msgs = 0
  · right
    obtain ⟨p, hp, h0⟩ := sumBy_pos fl s.posts (by omega)
    refine ⟨p, hp, ?_⟩
    cases p <;> simp [fl] at h0 ⊢
    split at h0
    · assumption
    · cases h0
  · exact .inl hm

/-! ## Negations -/

/-- A dead runner: a counted task, no message, the thread in the foreign loop, nobody about to send a message. -/
structure Dead (s : St) : Prop where
  pc : s.pc = .user
  run : s.run = []
  reent : s.reent = 0
  msgs : s.msgs = 0
  cnt : 1 ≤ s.cnt
  posts : ∀ p ∈ s.posts, p ≠ .wake ∧ (∀ r, p = .first r → r = 0) ∧ (∀ v, p = .second v → 2 ≤ v)

theorem mem_set {l : List Post} {i : Nat} {x p : Post} (h : p ∈ l.set i x) : p ∈ l ∨ p = x := by
  exact List.mem_or_eq_of_mem_set h

theorem dead_step {n s s'} (h : Dead s) (st : Step n s s') : Dead s' ∧ s'.started = s.started := by
  obtain ⟨d1, d2, d3, d4, d5, d6⟩ := h
  have key : ∀ (i : Nat) (x : Post), (x ≠ .wake ∧ (∀ r, x = .first r → r = 0) ∧ (∀ v, x = .second v → 2 ≤ v)) →
      ∀ p ∈ s.posts.set i x, p ≠ .wake ∧ (∀ r, p = .first r → r = 0) ∧ (∀ v, p = .second v → 2 ≤ v) := by
    intro i x hx p hp
    rcases mem_set hp with h | h
    · exact d6 p h
    · rw [h]; exact hx
  cases st with
  | call c =>
    refine ⟨⟨d1, d2, d3, d4, d5, fun p hp => ?_⟩, rfl⟩
    rcases List.mem_append.1 hp with h | h
    · exact d6 p h
    · simp at h; rw [h]; simp
  | refuse i c p q => exact ⟨⟨d1, d2, d3, d4, d5, key i _ (by simp)⟩, rfl⟩
  | pass i c p q => exact ⟨⟨d1, d2, d3, d4, d5, key i _ (by simp)⟩, rfl⟩
  | lock i c p q => exact ⟨⟨d1, d2, d3, d4, d5, key i _ (by simp)⟩, rfl⟩
  | push i c p => exact ⟨⟨d1, d2, d3, d4, d5, key i _ (by simp)⟩, rfl⟩
  | read1 i c p => exact ⟨⟨d1, d2, d3, d4, d5, key i _ (by simp [d3])⟩, rfl⟩
  | add1 i r c p =>
    have hr := (d6 _ (List.mem_of_getElem? p)).2.1 r rfl
    have e : needWake (s.cnt + 1) r = false := by simp [needWake, hr]; omega
    refine ⟨⟨d1, d2, d3, d4, by dsimp only; omega, key i _ ?_⟩, rfl⟩
    simp [e]
  | add2 i c p => exact ⟨⟨d1, d2, d3, d4, by dsimp only; omega, key i _ (by simp; omega)⟩, rfl⟩
  | read2 i v c p =>
    have hv := (d6 _ (List.mem_of_getElem? p)).2.2 v rfl
    have e : needWake v s.reent = false := by simp [needWake, d3]; omega
    refine ⟨⟨d1, d2, d3, d4, d5, key i _ ?_⟩, rfl⟩
    simp [e]
  | wake i c p => exact absurd rfl (d6 _ (List.mem_of_getElem? p)).1
  | join c => exact ⟨⟨d1, d2, d3, d4, d5, d6⟩, rfl⟩
  | interrupt c => exact ⟨⟨d1, d2, d3, d4, d5, d6⟩, rfl⟩
  | deliver c p q w => exact absurd d4 q
  | finish t r c p e => rw [d2] at e; cases e
  | none c p => rw [d1] at p; cases p
  | some c p => rw [d1] at p; cases p
  | more c p => rw [d1] at p; cases p
  | again c p => rw [d1] at p; cases p
  | intr c p => rw [d1] at p; cases p
  | pop t q c p => rw [d1] at p; cases p
  | empty c p => rw [d1] at p; cases p
  | sub c p => rw [d1] at p; cases p
  | fin c p => rw [d1] at p; cases p
  | clean c p => rw [d1] at p; cases p
  | back c p => rw [d1] at p; cases p

/-- **C69 fails**: a dead runner stays dead. However many tasks are posted (all of them with success), no task is ever
started again and no message is sent. -/
theorem C69_dead_for_ever_fails {n s t} (h : Dead s) (st : Steps n s t) :
    Dead t ∧ t.started = s.started := by
  induction st with
  | refl => exact ⟨h, rfl⟩
  | tail _ st ih =>
    have := dead_step ih.1 st
    exact ⟨this.1, this.2.trans ih.2⟩

/-- No wake-up can come after a stop: `Wakeup` refuses, so once the message queue is empty and the thread is in the
foreign loop nothing happens any more. -/
structure Stuck (s : St) : Prop where
  pc : s.pc = .user
  run : s.run = []
  msgs : s.msgs = 0
  stop : s.stop = true
  cleaned : s.cleaned = false

theorem stuck_step {n s s'} (h : Stuck s) (st : Step n s s') : Stuck s' ∧ s'.started = s.started := by
  obtain ⟨d1, d2, d3, d4, d5⟩ := h
  cases st with
  | deliver c p q w => exact absurd d3 q
  | finish t r c p e => rw [d2] at e; cases e
  | wake i c p => exact ⟨⟨d1, d2, by simp [d4, d3], d4, d5⟩, rfl⟩
  | join c => exact ⟨⟨d1, d2, d3, rfl, d5⟩, rfl⟩
  | interrupt c => exact ⟨⟨d1, d2, d3, rfl, d5⟩, rfl⟩
  | none c p => rw [d1] at p; cases p
  | some c p => rw [d1] at p; cases p
  | more c p => rw [d1] at p; cases p
  | again c p => rw [d1] at p; cases p
  | intr c p => rw [d1] at p; cases p
  | pop t q c p => rw [d1] at p; cases p
  | empty c p => rw [d1] at p; cases p
  | sub c p => rw [d1] at p; cases p
  | fin c p => rw [d1] at p; cases p
  | clean c p => rw [d1] at p; cases p
  | back c p => rw [d1] at p; cases p
  | _ => exact ⟨⟨d1, d2, d3, d4, d5⟩, rfl⟩

/-- **C69 fails** (stop): in such a state no task is started and no clean-up is done any more (before the destructor):
tasks in the queue are neither run nor cancelled, and a `Join` waiting for the clean-up waits for ever. -/
theorem C69_stuck_for_ever_fails {n s t} (h : Stuck s) (st : Steps n s t) :
    Stuck t ∧ t.started = s.started := by
  induction st with
  | refl => exact ⟨h, rfl⟩
  | tail _ st ih =>
    have := stuck_step ih.1 st
    exact ⟨this.1, this.2.trans ih.2⟩

/-! ## Witnesses -/

theorem Reach.cast {n} {s t : St} (h : Reach n s) (e : s = t) : Reach n t := e ▸ h

/-- Two tasks posted, the first wake-up sent. -/
theorem demo_two (n : Bool) : Reach n { queue := [0, 1], nxt := 2, cnt := 2, msgs := 1, posts := [.ok, .ok] } := by
  have r1 := Reach.step (nest := n) .init (Step.call _ rfl)
  have r2 := Reach.step r1 (Step.pass _ 0 rfl rfl rfl)
  have r3 := Reach.step r2 (Step.lock _ 0 rfl rfl rfl)
  have r4 := Reach.step r3 (Step.push _ 0 rfl rfl)
  have r5 := Reach.step r4 (Step.add2 _ 0 rfl rfl)
  have r6 := Reach.step r5 (Step.read2 _ 0 1 rfl rfl)
  have r7 := Reach.step r6 (Step.wake _ 0 rfl rfl)
  have r8 := Reach.step r7 (Step.call _ rfl)
  have r9 := Reach.step r8 (Step.pass _ 1 rfl rfl rfl)
  have r10 := Reach.step r9 (Step.lock _ 1 rfl rfl rfl)
  have r11 := Reach.step r10 (Step.push _ 1 rfl rfl)
  have r12 := Reach.step r11 (Step.read1 _ 1 rfl rfl)
  have r13 := Reach.step r12 (Step.add1 _ 1 0 rfl rfl)
  exact r13.cast (by decide)

/-- Inside the second task of the batch; the message sent at 257 is waiting. -/
theorem demo_second (n : Bool) : Reach n
    { nxt := 2, cnt := 2, msgs := 1, posts := [.ok, .ok], reent := 1, pend := 1, proc := 1, started := [0, 1],
      finished := [0], run := [1] } := by
  have r1 := Reach.step (demo_two n) (Step.deliver _ rfl rfl (by decide) (fun _ => rfl))
  have r2 := Reach.step r1 (Step.some _ rfl rfl rfl (by decide))
  have r3 := Reach.step r2 (Step.again _ rfl rfl)
  have r4 := Reach.step r3 (Step.pop _ 0 [1] rfl rfl rfl rfl)
  have r5 := Reach.step r4 (Step.finish _ 0 [] rfl rfl rfl)
  have r6 := Reach.step r5 (Step.pop _ 1 [] rfl rfl rfl rfl)
  exact r6.cast (by decide)

/-- **C69 fails** (no race involved): the second task of a batch shows a dialog, which takes the message (nothing to do);
then a task is posted: the count is 3, which is not less than 2 + 1, so no message is sent. The dialog does not see
the task, and when it is closed the runner is dead. -/
theorem C69_lost_fails : ∃ s, Reach true s ∧ Dead s ∧ s.queue = [2] ∧ s.started = [0, 1] ∧ s.stop = false ∧
    (∀ p ∈ s.posts, p = .ok) := by
  have r1 := Reach.step (demo_second true) (Step.deliver _ rfl rfl (by decide) (fun h => by cases h))
  have r2 := Reach.step r1 (Step.none _ rfl rfl rfl (by decide))
  have r3 := Reach.step r2 (Step.back _ rfl rfl (by decide))
  have r4 := Reach.step r3 (Step.call _ rfl)
  have r5 := Reach.step r4 (Step.pass _ 2 rfl rfl rfl)
  have r6 := Reach.step r5 (Step.lock _ 2 rfl rfl rfl)
  have r7 := Reach.step r6 (Step.push _ 2 rfl rfl)
  have r8 := Reach.step r7 (Step.add2 _ 2 rfl rfl)
  have r9 := Reach.step r8 (Step.read2 _ 2 3 rfl rfl)
  have r10 := Reach.step r9 (Step.finish _ 1 [] rfl rfl rfl)
  have r11 := Reach.step r10 (Step.sub _ rfl rfl)
  have r12 := Reach.step r11 (Step.fin _ rfl rfl)
  have r13 := Reach.step r12 (Step.back _ rfl rfl (by decide))
  refine ⟨_, r13, ⟨rfl, rfl, rfl, rfl, by decide, ?_⟩, by decide, by decide, rfl, ?_⟩
  · intro p hp
    have : p = .ok := by revert hp; revert p; decide
    rw [this]; simp
  · decide

/-- **C69 fails** (stop): a post that was let in before a `Join` (which returns success, nothing is pending) reports
success, and its task is never run nor cancelled. -/
theorem C69_stop_fails (n : Bool) : ∃ s, Reach n s ∧ Stuck s ∧ s.queue = [0] ∧ s.posts = [.ok] := by
  have r1 := Reach.step (nest := n) .init (Step.call _ rfl)
  have r2 := Reach.step r1 (Step.pass _ 0 rfl rfl rfl)
  have r3 := Reach.step r2 (Step.join _ rfl)
  have r4 := Reach.step r3 (Step.lock _ 0 rfl rfl rfl)
  have r5 := Reach.step r4 (Step.push _ 0 rfl rfl)
  have r6 := Reach.step r5 (Step.add2 _ 0 rfl rfl)
  have r7 := Reach.step r6 (Step.read2 _ 0 1 rfl rfl)
  have r8 := Reach.step r7 (Step.wake _ 0 rfl rfl)
  exact ⟨_, r8, ⟨rfl, rfl, rfl, rfl, rfl⟩, by decide, by decide⟩

/-- **C69 fails** (stop): `Join` comes between 245 and 257 while a task is posted; it has to wait (the count is not
zero), the batch is run, the new task stays, no message is left: `Join` waits for ever. -/
theorem C69_join_fails (n : Bool) : ∃ s, Reach n s ∧ Stuck s ∧ s.queue = [2] ∧ s.finished = [0, 1] := by
  have r1 := Reach.step (demo_two n) (Step.call _ rfl)
  have r2 := Reach.step r1 (Step.pass _ 2 rfl rfl rfl)
  have r3 := Reach.step r2 (Step.deliver _ rfl rfl (by decide) (fun _ => rfl))
  have r4 := Reach.step r3 (Step.some _ rfl rfl rfl (by decide))
  have r5 := Reach.step r4 (Step.join _ rfl)
  have r6 := Reach.step r5 (Step.again _ rfl rfl)
  have r7 := Reach.step r6 (Step.pop _ 0 [1] rfl rfl rfl rfl)
  have r8 := Reach.step r7 (Step.lock _ 2 rfl rfl rfl)
  have r9 := Reach.step r8 (Step.push _ 2 rfl rfl)
  have r10 := Reach.step r9 (Step.add2 _ 2 rfl rfl)
  have r11 := Reach.step r10 (Step.read2 _ 2 3 rfl rfl)
  have r12 := Reach.step r11 (Step.finish _ 0 [] rfl rfl rfl)
  have r13 := Reach.step r12 (Step.pop _ 1 [2] rfl rfl rfl rfl)
  have r14 := Reach.step r13 (Step.finish _ 1 [] rfl rfl rfl)
  have r15 := Reach.step r14 (Step.sub _ rfl rfl)
  have r16 := Reach.step r15 (Step.fin _ rfl rfl)
  have r17 := Reach.step r16 (Step.back _ rfl rfl (by decide))
  exact ⟨_, r17, ⟨rfl, rfl, rfl, rfl, rfl⟩, by decide, by decide⟩

end Verif.Proxy
