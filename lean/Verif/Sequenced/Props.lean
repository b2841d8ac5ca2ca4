import Verif.Sequenced.Calm
/-! # C44, C45: sequenced task runner -/
namespace Verif.Sequenced
open Verif.Common

/-- C44. In every reachable state (any number of posting and pool threads, every interleaving, stop, interrupt, release and clean-up included):
the tasks started so far form a subsequence of the order in which tasks entered the queue — exactly an initial segment of it as long as no clean-up has discarded
tasks — and at most one thread is running a task. -/
theorem C44_order_and_exclusion (s : St) (h : Reach false s) :
    s.started.Sublist s.pushed ∧
    (s.cleaned = false → s.started <+: s.pushed) ∧
    (∀ (i j : Nat) (t u : Nat), s.threads[i]? = some (.exRunning t) → s.threads[j]? = some (.exRunning u) → i = j) := by
  have ⟨a1, a2, prod, prodLock, intr, task, noTask, fifo, sub, eq⟩ := inv_reach h
  have hpre : s.started <+: s.taken := by
    by_cases h0 : sumBy isTask s.threads = 0
    · rw [noTask h0]; exact List.prefix_refl _
    · obtain ⟨x, hx, hx0⟩ := sumBy_pos isTask s.threads (by omega)
      obtain ⟨j, hj⟩ := List.getElem?_of_mem hx
      cases x <;> simp [isTask] at hx0
      rw [task j _ hj]; exact List.prefix_append _ _
  refine ⟨?_, ?_, ?_⟩
  · rw [← fifo]
    exact (hpre.sublist.trans sub).trans (List.sublist_append_left _ _)
  · intro hc
    rw [← fifo, ← eq hc]
    exact hpre.trans (List.prefix_append _ _)
  · intro i j t u hi hj
    refine Classical.byContradiction fun hn => ?_
    have h1 := add_le_sumBy act s.threads i j _ _ hn hi hj
    rw [show act (.exRunning t) = 1 from rfl, show act (.exRunning u) = 1 from rfl] at h1
    omega

/-- C44, the queue is used by one producer at a time, as its implementation requires. -/
theorem C44_single_producer (s : St) (h : Reach false s) (i j : Nat) (t u : Nat) (b c : Bool)
    (hi : s.threads[i]? = some (.pushing t b)) (hj : s.threads[j]? = some (.pushing u c)) : i = j := by
  refine Classical.byContradiction fun hn => ?_
  have h1 := add_le_sumBy isProd s.threads i j _ _ hn hi hj
  simp only [isProd] at h1
  have := (inv_reach h).prod
  omega

/-- Some thread runs the runner, is about to hand it to the pool, or the pool has a job for it. -/
def Executing (s : St) : Prop := 0 < s.pool ∨ ∃ p ∈ s.threads, p = .schedule ∨ p = .exCheck ∨ p = .exPop ∨ p = .exSub ∨
  (∃ t, p = .exTask t ∨ p = .exRunning t) ∨ (∃ t, p = .pushing t true) ∨ p = .unlocking true

theorem executing_of {s : St} (h : 0 < s.pool + sumBy act s.threads) : Executing s := by
  by_cases h0 : 0 < s.pool
  · exact .inl h0
  · obtain ⟨x, hx, hx0⟩ := sumBy_pos act s.threads (by omega)
    refine .inr ⟨x, hx, ?_⟩
    cases x <;> simp [act] at hx0 ⊢
    all_goals (rename_i b; cases b <;> simp at hx0 ⊢)

/-- C45 restricted to schedules in which the executor does not look into the queue while a post is between its counter update and its unlock: a runner that is
not stopped and still referenced and that has an accepted task (in the queue, or counted and about to be put there) always has an executor. -/
theorem C45_no_lost_wakeup_partial (s : St) (h : Reach true s) (hst : s.word.stop = false) (hsh : s.shared = true)
    (hq : s.queue ≠ [] ∨ ∃ t b, PC.pushing t b ∈ s.threads) : Executing s := by
  have hJ := inv2_reach h
  obtain ⟨c1, -⟩ := hJ.cnt hst hsh
  refine executing_of (hJ.wake hst hsh ?_)
  rcases hq with hq | ⟨t, b, hm⟩
  · have := List.length_pos_iff.2 hq; omega
  · have := le_sumBy_of_mem isPushing _ _ hm
    simp only [isPushing] at this; omega

/-- non-vacuity: a calm state with an accepted task -/
example : ∃ s, Reach true s ∧ s.word.stop = false ∧ s.shared = true ∧ s.queue = [7] := by
  have r0 : Reach true { threads := [.idle, .idle] } := .init _ ⟨2, rfl⟩
  have r1 := Reach.step _ _ r0 (.post _ 0 7 rfl)
  have r2 := Reach.step _ _ r1 (.casOk _ 0 7 {} rfl rfl rfl rfl (by unfold cntMod; decide))
  have r3 := Reach.step _ _ r2 (.push _ 0 7 true rfl)
  exact ⟨_, r3, rfl, rfl, rfl⟩

/-- A state in which the wake-up has been lost: nobody executes, nobody will schedule, the counter says somebody does. -/
def Stuck (s : St) : Prop := s.pool + sumBy act s.threads = 0 ∧ (0 < s.word.cnt ∨ s.word.stop = true)

theorem stuck_step {s s'} (hK : Stuck s) (hs : Step false s s') : Stuck s' ∧ s'.started = s.started := by
  obtain ⟨k1, k2⟩ := hK
  have key : ∀ {i : Nat} {p : PC} (q : PC), s.threads[i]? = some p → act q = 0 → sumBy act (s.threads.set i q) = 0 := by
    intro i p q h hq
    obtain ⟨u1, -, -, -, -, l1, -⟩ := sums_of h q
    omega
  have nact : ∀ {i : Nat} {p : PC}, s.threads[i]? = some p → act p = 1 → False := by
    intro i p h hp
    have := le_sumBy act _ _ _ h; omega
  have p0 : s.pool = 0 := by omega
  cases hs with
  | post i t h => exact ⟨⟨by (show s.pool + _ = 0; rw [p0, key _ h rfl]), k2⟩, rfl⟩
  | refuse i t f h hf => exact ⟨⟨by (show s.pool + _ = 0; rw [p0, key _ h rfl]), k2⟩, rfl⟩
  | reload i t f h hf hl => exact ⟨⟨by (show s.pool + _ = 0; rw [p0, key _ h rfl]), k2⟩, rfl⟩
  | casFail i t f h hf hl hw => exact ⟨⟨by (show s.pool + _ = 0; rw [p0, key _ h rfl]), k2⟩, rfl⟩
  | casOk i t f h hf hl hw hb =>
    subst hw
    have : 0 < s.word.cnt := by rcases k2 with k2 | k2; exact k2; rw [hf] at k2; cases k2
    refine ⟨⟨?_, .inl (by simp)⟩, rfl⟩
    have h0 : decide (s.word.cnt = 0) = false := decide_eq_false (by omega)
    simp only [p0, h0, key (.pushing t false) h rfl]
  | push i t b h =>
    cases b
    · exact ⟨⟨by (show s.pool + _ = 0; rw [p0, key _ h rfl]), k2⟩, rfl⟩
    · exact (nact h rfl).elim
  | unlock i b h =>
    cases b
    · exact ⟨⟨by (show s.pool + _ = 0; rw [p0, key _ h rfl]), k2⟩, rfl⟩
    · exact (nact h rfl).elim
  | schedule i h => exact (nact h rfl).elim
  | scheduleFail i h => exact (nact h rfl).elim
  | join => exact ⟨⟨k1, .inr rfl⟩, rfl⟩
  | interrupt => exact ⟨⟨k1, .inr rfl⟩, rfl⟩
  | unshare => exact ⟨⟨k1, k2⟩, rfl⟩
  | exStart i h hp => omega
  | exCheck i h => exact (nact h rfl).elim
  | exUnshared i h hs => exact (nact h rfl).elim
  | exPop i t q h hq hc => exact (nact h rfl).elim
  | exPopNone i h hq hc => exact (nact h rfl).elim
  | exStartTask i t h => exact (nact h rfl).elim
  | exEndTask i t h => exact (nact h rfl).elim
  | exSub i h => exact (nact h rfl).elim
  | exLeave i h => exact ⟨⟨by (show s.pool + _ = 0; rw [p0, key _ h rfl]), k2⟩, rfl⟩
  | exCleanup i h hc => exact ⟨⟨by (show s.pool + _ = 0; rw [p0, key _ h rfl]), k2⟩, rfl⟩
  | cleanPop i t q h hq => exact ⟨⟨k1, k2⟩, rfl⟩
  | cleanEnd i h hq => exact ⟨⟨by (show s.pool + _ = 0; rw [p0, key _ h rfl]), .inr rfl⟩, rfl⟩

/-- C45 does not hold: there is a reachable state of a runner that is neither stopped nor released, all threads idle, with task 2 accepted and in the queue, from which
no continuation whatever (further posts included) ever starts any task. Executor finishes task 1 after the poster of task 2 has raised the counter and before it has
pushed the task, finds the queue empty and leaves; the poster saw a non-zero counter and does not schedule. -/
theorem C45_fails : ∃ s, Reach false s ∧ s.word.stop = false ∧ s.shared = true ∧ (∀ p ∈ s.threads, p = .idle) ∧
    s.queue = [2] ∧ s.started = [1] ∧ ∀ s', ReachFrom false s s' → s'.started = [1] := by
  have hm : cntMod = 536870912 := by unfold cntMod; rfl
  have r0 : Reach false { threads := [.idle, .idle] } := .init _ ⟨2, rfl⟩
  have r1 := Reach.step _ _ r0 (.post _ 0 1 rfl)
  have r2 := Reach.step _ _ r1 (.casOk _ 0 1 {} rfl rfl rfl rfl (by rw [hm]; decide))
  have r3 := Reach.step _ _ r2 (.push _ 0 1 true rfl)
  have r4 := Reach.step _ _ r3 (.unlock _ 0 true rfl)
  have r5 := Reach.step _ _ r4 (.schedule _ 0 rfl)
  have r6 := Reach.step _ _ r5 (.exStart _ 1 rfl (by simp))
  have r7 := Reach.step _ _ r6 (.exCheck _ 1 rfl)
  have r8 := Reach.step _ _ r7 (.exPop _ 1 1 [] rfl rfl (by simp))
  have r9 := Reach.step _ _ r8 (.exStartTask _ 1 1 rfl)
  have r10 := Reach.step _ _ r9 (.exEndTask _ 1 1 rfl)
  have r11 := Reach.step _ _ r10 (.post _ 0 2 rfl)
  have r12 := Reach.step _ _ r11 (.casOk _ 0 2 { cnt := 1 } rfl rfl rfl rfl (by rw [hm]; decide))
  have r13 := Reach.step _ _ r12 (.exSub _ 1 rfl)
  simp only [hm, Nat.reduceAdd, Nat.reduceSub, Nat.reduceMod, List.set_cons_succ, List.set_cons_zero, Nat.one_ne_zero, if_false] at r13
  have r14 := Reach.step _ _ r13 (.exCheck _ 1 rfl)
  have r15 := Reach.step _ _ r14 (.exPopNone _ 1 rfl rfl (by simp))
  have r16 := Reach.step _ _ r15 (.exLeave _ 1 rfl)
  have r17 := Reach.step _ _ r16 (.push _ 0 2 false rfl)
  have r18 := Reach.step _ _ r17 (.unlock _ 0 false rfl)
  refine ⟨_, r18, rfl, rfl, ?_, rfl, rfl, ?_⟩
  · intro p hp; simp at hp; exact hp
  · intro s' hr
    have : Stuck s' ∧ s'.started = [1] := by
      induction hr with
      | refl => exact ⟨⟨rfl, .inl (by simp)⟩, rfl⟩
      | step s s' _ hs ih =>
        obtain ⟨h1, h2⟩ := stuck_step ih.1 hs
        exact ⟨h1, h2.trans ih.2⟩
    exact this.2

#print axioms C44_order_and_exclusion
#print axioms C44_single_producer
#print axioms C45_no_lost_wakeup_partial
#print axioms C45_fails
end Verif.Sequenced
