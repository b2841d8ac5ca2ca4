import Verif.Parallel.Lemmas
set_option linter.unusedVariables false
/-!
# C46, C63, C64: the parallel task runner
-/
namespace Verif.Parallel
open Verif.Common

/-! ## C46 -/

def isRunning : PC → Bool
  | .exRunning _ => true
  | _ => false

theorem running_le (l : List PC) : (l.filter isRunning).length ≤ sumBy act l := by
  induction l with
  | nil => simp
  | cons a l ih =>
    rw [List.filter_cons]
    cases a <;> simp [isRunning, act] <;> omega

/-- C46. In every reachable state of every schedule (any number of posting and pool threads, stop, interrupt, release, refusals by the pool and clean-up included, and however many tasks are
pending) at most the effective maximum of threads are running tasks. -/
theorem C46_maximum (mx : Nat) (s : St) (h : Reach mx false s) : (s.threads.filter isRunning).length ≤ mx := by
  have hI := inv_reach h
  have := running_le s.threads
  have := hI.par
  have := hI.le
  omega

/-- C46 for the configured number -/
theorem C46_configured (m procs : Nat) (hm : m ≠ 0) (s : St) (h : Reach (effective m procs) false s) : (s.threads.filter isRunning).length ≤ m := by
  have := C46_maximum _ s h
  rwa [show effective m procs = m from if_pos hm] at this

/-- C46: the counter `uParallelCurrent` is exactly the number of executors that exist, are promised by the pool, or are about to be requested; it never wraps -/
theorem C46_counter (mx : Nat) (s : St) (h : Reach mx false s) : s.word.par = s.pool + sumBy act s.threads ∧ s.word.par ≤ mx := ⟨(inv_reach h).par, (inv_reach h).le⟩

/-! ## C63 -/

/-- a thread may execute `Pop` / `Push` next -/
def poppers : PC → Bool
  | .exPop => true
  | .cleanup => true
  | _ => false
def pushers : PC → Bool
  | .pushing _ _ => true
  | _ => false

theorem two {f : PC → Nat} {g : PC → Bool} (hg : ∀ p, g p = true → f p = 1) {l : List PC} (h : sumBy f l ≤ 1) {i j : Nat} {p q : PC} (hi : l[i]? = some p) (hj : l[j]? = some q)
    (hp : g p = true) (hq : g q = true) : i = j := by
  refine Classical.byContradiction fun hn => ?_
  have := add_le_sumBy f l i j p q hn hi hj
  rw [hg p hp, hg q hq] at this
  omega

/-- C63, consumers: two threads are never at the same time inside `Pop` -/
theorem C63_single_consumer (mx : Nat) (s : St) (h : Reach mx false s) (i j : Nat) (p q : PC) (hi : s.threads[i]? = some p) (hj : s.threads[j]? = some q)
    (hp : poppers p = true) (hq : poppers q = true) : i = j := by
  refine two (f := cons) (g := poppers) (fun p h => by cases p <;> simp [poppers] at h <;> rfl) ?_ hi hj hp hq
  have := (inv_reach h).pop
  have := Bool.toNat_le s.word.pop
  omega

/-- C63, producers: two threads are never at the same time inside `Push`, as long as no clean-up has reset the word. Missing: after a clean-up (`C63_two_producers_fails`). -/
theorem C63_single_producer_partial (mx : Nat) (s : St) (h : Reach mx false s) (hc : s.cleaned = false) (i j : Nat) (p q : PC) (hi : s.threads[i]? = some p) (hj : s.threads[j]? = some q)
    (hp : pushers p = true) (hq : pushers q = true) : i = j := by
  refine two (f := isProd) (g := pushers) (fun p h => by cases p <;> simp [pushers] at h <;> rfl) ?_ hi hj hp hq
  have := (inv_reach h).prod hc
  have := Bool.toNat_le s.word.lock
  omega

/-! ## C64 -/

theorem wrap_small {x : Int} (h0 : 0 ≤ x) (h : x < cntHalf) : wrap x = x := by
  unfold wrap
  unfold cntMod cntHalf at *
  rw [Int.bmod_def]
  split <;> omega

theorem sumBy_le {f g : PC → Nat} (h : ∀ p, f p ≤ g p) (l : List PC) : sumBy f l ≤ sumBy g l := by
  induction l with
  | nil => simp
  | cons a l ih => have := h a; simp; omega

def handOrPop (p : PC) : Nat := inHand p + (match p with | .exPop => 1 | _ => 0)

theorem pushing_le_prod (l : List PC) : sumBy isPushing l ≤ sumBy isProd l := sumBy_le (fun p => by cases p <;> simp [isPushing, isProd]) l

theorem hand_pop_lt {l : List PC} {i : Nat} (h : l[i]? = some .exPop) : sumBy inHand l + 1 ≤ sumBy act l := by
  have h1 : sumBy handOrPop l ≤ sumBy act l := sumBy_le (fun p => by
    cases p <;> simp [handOrPop, act, inHand]
    rename_i t; cases t <;> simp) l
  have h2 : sumBy handOrPop l = sumBy inHand l + sumBy (fun p => match p with | .exPop => 1 | _ => 0) l := sumBy_add inHand _ l
  have h3 := le_sumBy (fun p => match p with | PC.exPop => 1 | _ => 0) _ _ _ h
  dsimp only at h3
  omega

/-- tasks accepted and not finished -/
def pending (s : St) : Nat := s.queue.length + sumBy isPushing s.threads + sumBy inHand s.threads

structure InvC (mx : Nat) (s : St) : Prop where
  c : s.word.stop = false → s.shared = true → s.word.cnt = (pending s : Int) ∧ (pending s : Int) < cntHalf ∧ s.word.par = min mx (pending s) ∧ sumBy bad s.threads = 0

theorem invC_init {mx s} (h : Init s) : InvC mx s := by
  obtain ⟨n, rfl⟩ := h
  have e := fun f h => sumBy_replicate (α := PC) f .idle h n
  refine ⟨fun _ _ => ?_⟩
  have h0 : pending { threads := List.replicate n PC.idle } = 0 := by simp [pending, e isPushing rfl, e inHand rfl]
  rw [h0]
  exact ⟨rfl, (by unfold cntHalf; decide), (Nat.min_zero _).symm, e bad rfl⟩

theorem invC_move {mx} {s s' : St} (hJ : InvC mx s) {i : Nat} {p q : PC} (h : s.threads[i]? = some p) (hs : s'.threads = s.threads.set i q)
    (hst : s'.word.stop = false → s.word.stop = false) (hsh : s'.shared = true → s.shared = true)
    (hq : s'.word.stop = false → s'.shared = true → s'.queue.length + isPushing q + inHand q = s.queue.length + isPushing p + inHand p ∧ bad q = 0)
    (hw : s'.word.cnt = s.word.cnt) (hp : s'.word.stop = false → s'.shared = true → s'.word.par = s.word.par) : InvC mx s' := by
  obtain ⟨u1, u2, u3, u4, u5, u6, -, -, -, -, -, lb⟩ := sums_of h q
  rw [← hs] at u4 u5 u6
  refine ⟨fun h1 h2 => ?_⟩
  obtain ⟨e1, e2⟩ := hq h1 h2
  obtain ⟨k1, k2, k3, k4⟩ := hJ.c (hst h1) (hsh h2)
  have hpe : pending s' = pending s := by unfold pending; omega
  rw [hpe, hw, hp h1 h2]
  exact ⟨k1, k2, k3, by omega⟩

theorem invC_step {mx} (hmx : mx < 2147483648) {s s' : St} (hI : Inv mx s) (hJ : InvC mx s) (hs : Step mx true s s') : InvC mx s' := by
  have ⟨c1, c2, c3, c4, c5, c6⟩ := hI
  have hpar : i32 s.word.par = s.word.par := if_pos (by omega)
  cases hs with
  | refuse i t h hs => exact hJ
  | post i t h hs => exact invC_move hJ h rfl id id (fun _ _ => ⟨rfl, rfl⟩) rfl (fun _ _ => rfl)
  | cas i t h hl hb =>
    obtain ⟨u1, u2, u3, u4, u5, u6, -⟩ := sums_of h (.pushing t (raises mx s.word))
    simp only [isPushing, inHand, bad] at u4 u5 u6
    refine ⟨fun h1 h2 => ?_⟩
    obtain ⟨k1, k2, k3, k4⟩ := hJ.c h1 h2
    have hb := hb rfl
    have hpe : pending { s with word := { s.word with lock := true, cnt := wrap (s.word.cnt + 1), par := s.word.par + (raises mx s.word).toNat }, threads := s.threads.set i (.pushing t (raises mx s.word)) } = pending s + 1 := by unfold pending; dsimp only; omega
    have hw : wrap (s.word.cnt + 1) = s.word.cnt + 1 := wrap_small (by omega) hb
    rw [hpe]
    refine ⟨?_, ?_, ?_, ?_⟩
    · show wrap (s.word.cnt + 1) = _
      rw [hw]; omega
    · omega
    · show s.word.par + (raises mx s.word).toNat = _
      unfold raises
      rw [hw, hpar]
      by_cases hlt : s.word.par < mx
      · have : s.word.cnt + 1 ≥ (s.word.par : Int) := by omega
        simp [hlt, this]; omega
      · simp [hlt]; omega
    · dsimp only; omega
  | push i t b h => exact invC_move hJ h rfl id id (fun _ _ => ⟨by simp [isPushing, inHand], rfl⟩) rfl (fun _ _ => rfl)
  | unlock i b h => exact invC_move (q := if b then .schedule else .idle) hJ h rfl id id (fun _ _ => ⟨by cases b <;> rfl, by cases b <;> rfl⟩) rfl (fun _ _ => rfl)
  | schedule i h => exact invC_move hJ h rfl id id (fun _ _ => ⟨rfl, rfl⟩) rfl (fun _ _ => rfl)
  | scheduleFail i h => exact ⟨fun h => by cases h⟩
  | failDec i h =>
    refine ⟨fun h1 h2 => ?_⟩
    have := (hJ.c h1 h2).2.2.2
    have l := le_sumBy bad _ _ _ h
    simp only [bad] at l; omega
  | join => exact ⟨fun h => by cases h⟩
  | interrupt => exact ⟨fun h => by cases h⟩
  | unshare => exact ⟨fun _ h => by cases h⟩
  | exStart i h hp => exact invC_move hJ h rfl id id (fun _ _ => ⟨rfl, rfl⟩) rfl (fun _ _ => rfl)
  | exCheck i h =>
    refine invC_move (q := if s.shared then .exIntr else .exBreak) hJ h rfl id id (fun _ h2 => ?_) rfl (fun _ _ => rfl)
    have h2 : s.shared = true := h2
    rw [h2]; exact ⟨rfl, rfl⟩
  | exIntr i h =>
    refine invC_move (q := if s.word.intr then .exBreak else .exPopLock) hJ h rfl id id (fun h1 _ => ?_) rfl (fun _ _ => rfl)
    have h1 : s.word.stop = false := h1
    have : s.word.intr = false := by
      cases e : s.word.intr with
      | false => rfl
      | true => have := c6 e; rw [h1] at this; cases this
    rw [this]; exact ⟨rfl, rfl⟩
  | exPopLock i h hp => exact invC_move hJ h rfl id id (fun _ _ => ⟨rfl, rfl⟩) rfl (fun _ _ => rfl)
  | exPop i t q h hq hc => exact invC_move hJ h rfl id id (fun _ _ => ⟨by simp [hq, isPushing, inHand], rfl⟩) rfl (fun _ _ => rfl)
  | exPopNone i h hq hc =>
    refine ⟨fun h1 h2 => ?_⟩
    exfalso
    have h1 : s.word.stop = false := h1
    obtain ⟨k1, k2, k3, k4⟩ := hJ.c h1 h2
    have hcl : s.cleaned = false := by
      cases e : s.cleaned with
      | false => rfl
      | true => have := c5 e; rw [h1] at this; cases this
    have a1 := c4 hcl
    rw [hc rfl] at a1
    have a2 := pushing_le_prod s.threads
    have a3 := hand_pop_lt h
    have a4 : pending s = sumBy inHand s.threads := by
      unfold pending; rw [hq]
      simp only [Bool.toNat_false] at a1
      simp; omega
    omega
  | exUnpop i t h => exact invC_move hJ h rfl id id (fun _ _ => ⟨rfl, rfl⟩) rfl (fun _ _ => rfl)
  | exUnpopNone i h =>
    refine ⟨fun h1 h2 => ?_⟩
    have := (hJ.c h1 h2).2.2.2
    have l := le_sumBy bad _ _ _ h
    simp only [bad] at l; omega
  | exStartTask i t h => exact invC_move hJ h rfl id id (fun _ _ => ⟨rfl, rfl⟩) rfl (fun _ _ => rfl)
  | exEndTask i t h => exact invC_move hJ h rfl id id (fun _ _ => ⟨rfl, rfl⟩) rfl (fun _ _ => rfl)
  | exSub i h =>
    obtain ⟨u1, u2, u3, u4, u5, u6, -, -, -, -, lh, -⟩ := sums_of h (if leaves s.word then .exExit else .exCheck)
    have e1 : isPushing (if leaves s.word then PC.exExit else .exCheck) = 0 ∧ inHand (if leaves s.word then PC.exExit else .exCheck) = 0 ∧ bad (if leaves s.word then PC.exExit else .exCheck) = 0 := by
      cases leaves s.word <;> exact ⟨rfl, rfl, rfl⟩
    rw [e1.1, show isPushing .exSub = 0 from rfl] at u4
    rw [e1.2.1, show inHand .exSub = 1 from rfl] at u5
    rw [e1.2.2, show bad .exSub = 0 from rfl] at u6
    rw [show inHand .exSub = 1 from rfl] at lh
    refine ⟨fun h1 h2 => ?_⟩
    obtain ⟨k1, k2, k3, k4⟩ := hJ.c h1 h2
    have hge : 1 ≤ pending s := by unfold pending; omega
    have hpe : pending { s with word := { s.word with cnt := wrap (s.word.cnt - 1), par := s.word.par - (leaves s.word).toNat }, threads := s.threads.set i (if leaves s.word then .exExit else .exCheck) } = pending s - 1 := by unfold pending; dsimp only; omega
    have hw : wrap (s.word.cnt - 1) = s.word.cnt - 1 := wrap_small (by omega) (by omega)
    rw [hpe]
    refine ⟨?_, ?_, ?_, ?_⟩
    · show wrap (s.word.cnt - 1) = _
      rw [hw]; omega
    · omega
    · show s.word.par - (leaves s.word).toNat = _
      unfold leaves
      rw [hw, hpar]
      by_cases hlt : s.word.cnt - 1 < (s.word.par : Int)
      · simp [hlt]; omega
      · simp [hlt]; omega
    · dsimp only; omega
  | exBreak i h =>
    refine ⟨fun h1 h2 => ?_⟩
    have := (hJ.c h1 h2).2.2.2
    have l := le_sumBy bad _ _ _ h
    simp only [bad] at l; omega
  | exLeave i h => exact invC_move hJ h rfl id id (fun _ _ => ⟨rfl, rfl⟩) rfl (fun _ _ => rfl)
  | exCleanup i h hc =>
    refine ⟨fun h1 h2 => ?_⟩
    have h1 : s.word.stop = false := h1
    have h2 : s.shared = true := h2
    rcases hc with h | h | h
    · rw [h2] at h; cases h
    · have := c6 h; rw [h1] at this; cases this
    · rw [h1] at h; cases h.1
  | cleanBusy i h hp => exact invC_move hJ h rfl id id (fun _ _ => ⟨rfl, rfl⟩) rfl (fun _ _ => rfl)
  | cleanLock i h hp =>
    refine ⟨fun h1 h2 => ?_⟩
    have := (hJ.c h1 h2).2.2.2
    have l := le_sumBy bad _ _ _ h
    simp only [bad] at l; omega
  | cleanPop i t q h hq =>
    refine ⟨fun h1 h2 => ?_⟩
    have := (hJ.c h1 h2).2.2.2
    have l := le_sumBy bad _ _ _ h
    simp only [bad] at l; omega
  | cleanEnd i h hq => exact ⟨fun h => by cases h⟩

theorem invC_reach {mx s} (hmx : mx < 2147483648) (h : Reach mx true s) : InvC mx s := by
  induction h with
  | init s h => exact invC_init h
  | step s s' h hs ih => exact invC_step hmx (inv_reach h) ih hs

/-- a pool thread executes the runner and has not decided to leave, the pool has a job for it, or a poster is about to give it one -/
def executors (s : St) : Nat := s.pool + (s.threads.filter fun p => match p with
  | .pushing _ true | .unlocking true | .schedule | .exCheck | .exIntr | .exPopLock | .exPop | .exUnpop (some _) | .exTask _ | .exRunning _ | .exSub => true
  | _ => false).length

theorem executors_eq {s : St} (hb : sumBy bad s.threads = 0) : executors s = s.pool + sumBy act s.threads := by
  unfold executors
  congr 1
  generalize s.threads = l at hb
  induction l with
  | nil => rfl
  | cons a l ih =>
    simp only [sumBy_cons] at hb
    rw [List.filter_cons]
    have ih := ih (by omega)
    have hb : bad a = 0 := by omega
    cases a with
    | pushing t b => cases b <;> simp [act, ih] <;> omega
    | unlocking b => cases b <;> simp [act, ih] <;> omega
    | exUnpop t => cases t <;> simp [act, ih, bad] at hb ⊢ <;> omega
    | _ => simp [act, ih, bad] at hb ⊢ <;> omega

/-- C64 restricted to schedules in which no executor looks into the queue while a post is between its counter update and its unlock: a runner that is not stopped and still referenced always has
exactly as many executors as there are unfinished tasks, up to the maximum — in particular no task waits without an executor. Missing: the other schedules (`C64_fails`). -/
theorem C64_executors_partial (mx : Nat) (hmx : mx < 2147483648) (s : St) (h : Reach mx true s) (hst : s.word.stop = false) (hsh : s.shared = true) :
    executors s = min mx (pending s) := by
  obtain ⟨_, _, k3, k4⟩ := (invC_reach hmx h).c hst hsh
  rw [executors_eq k4, ← (inv_reach h).par, k3]

/-- C64, the wake-up -/
theorem C64_no_lost_wakeup_partial (mx : Nat) (h0 : 0 < mx) (hmx : mx < 2147483648) (s : St) (h : Reach mx true s) (hst : s.word.stop = false) (hsh : s.shared = true)
    (hq : s.queue ≠ [] ∨ ∃ t b, PC.pushing t b ∈ s.threads) : 0 < executors s := by
  rw [C64_executors_partial mx hmx s h hst hsh]
  have : 0 < pending s := by
    unfold pending
    rcases hq with hq | ⟨t, b, hm⟩
    · have := List.length_pos_iff.2 hq; omega
    · have := le_sumBy_of_mem isPushing _ _ hm
      simp only [isPushing] at this; omega
  omega

/-! ## Counterexamples and cases -/

theorem wrap_one : wrap (0 + 1) = 1 ∧ wrap (1 + 1) = 2 ∧ wrap (2 - 1) = 1 ∧ wrap (1 - 1) = 0 := by
  refine ⟨wrap_small ?_ ?_, wrap_small ?_ ?_, wrap_small ?_ ?_, wrap_small ?_ ?_⟩ <;> (try unfold cntHalf) <;> decide

theorem raises_first (mx : Nat) (h : 0 < mx) (l st it po : Bool) : raises mx { lock := l, stop := st, intr := it, pop := po, cnt := 0, par := 0 } = true := by
  simp only [raises, wrap_one.1]; simp [i32, h]
theorem raises_second (l st it po : Bool) : raises 1 { lock := l, stop := st, intr := it, pop := po, cnt := 1, par := 1 } = false := by
  simp [raises]
theorem raises_two (l st it po : Bool) : raises 2 { lock := l, stop := st, intr := it, pop := po, cnt := 1, par := 1 } = true := by
  simp only [raises, wrap_one.2.1]; simp [i32]
theorem leaves_two (l st it po : Bool) : leaves { lock := l, stop := st, intr := it, pop := po, cnt := 2, par := 1 } = false := by
  simp only [leaves, wrap_one.2.2.1]; simp [i32]

/-- one thread posts the first task up to the point where its executor has it running -/
theorem first_running (mx : Nat) (h : 0 < mx) (n : Nat) : Reach mx false { word := { cnt := 1, par := 1 }, threads := .idle :: .exRunning 1 :: List.replicate n .idle, started := [1] } := by
  have r0 : Reach mx false { threads := .idle :: .idle :: List.replicate n .idle } := .init _ ⟨n + 2, rfl⟩
  have r1 := Reach.step _ _ r0 (.post _ 0 1 rfl rfl)
  have r2 := Reach.step _ _ r1 (.cas _ 0 1 rfl rfl (by simp))
  simp only [raises_first mx h, wrap_one.1, List.set_cons_zero] at r2
  have r3 := Reach.step _ _ r2 (.push _ 0 1 true rfl)
  have r4 := Reach.step _ _ r3 (.unlock _ 0 true rfl)
  have r5 := Reach.step _ _ r4 (.schedule _ 0 rfl)
  have r6 := Reach.step _ _ r5 (.exStart _ 1 rfl (by simp))
  have r7 := Reach.step _ _ r6 (.exCheck _ 1 rfl)
  have r8 := Reach.step _ _ r7 (.exIntr _ 1 rfl)
  have r9 := Reach.step _ _ r8 (.exPopLock _ 1 rfl rfl)
  have r10 := Reach.step _ _ r9 (.exPop _ 1 1 [] rfl rfl (by simp))
  have r11 := Reach.step _ _ r10 (.exUnpop _ 1 1 rfl)
  have r12 := Reach.step _ _ r11 (.exStartTask _ 1 1 rfl)
  exact r12

/-- C46: the maximum is reached (two tasks run at the same time in a runner with maximum 2) -/
theorem C46_case : ∃ s, Reach 2 false s ∧ (s.threads.filter isRunning).length = 2 := by
  have r0 := first_running 2 (by decide) 1
  have r1 := Reach.step _ _ r0 (.post _ 0 2 rfl rfl)
  have r2 := Reach.step _ _ r1 (.cas _ 0 2 rfl rfl (by simp))
  simp only [raises_two, wrap_one.2.1, List.set_cons_zero] at r2
  have r3 := Reach.step _ _ r2 (.push _ 0 2 true rfl)
  have r4 := Reach.step _ _ r3 (.unlock _ 0 true rfl)
  have r5 := Reach.step _ _ r4 (.schedule _ 0 rfl)
  have r6 := Reach.step _ _ r5 (.exStart _ 2 rfl (by simp))
  have r7 := Reach.step _ _ r6 (.exCheck _ 2 rfl)
  have r8 := Reach.step _ _ r7 (.exIntr _ 2 rfl)
  have r9 := Reach.step _ _ r8 (.exPopLock _ 2 rfl rfl)
  have r10 := Reach.step _ _ r9 (.exPop _ 2 2 [] rfl rfl (by simp))
  have r11 := Reach.step _ _ r10 (.exUnpop _ 2 2 rfl)
  have r12 := Reach.step _ _ r11 (.exStartTask _ 2 2 rfl)
  exact ⟨_, r12, rfl⟩

/-- C64 fails: with maximum 1 the executor has finished task 1 while task 2 is accepted but not pushed yet; it finds the queue empty and leaves; then task 2 is pushed. Nobody executes and nobody will
before another post; the runner is neither stopped nor released. -/
theorem C64_fails : ∃ s, Reach 1 false s ∧ s.word.stop = false ∧ s.shared = true ∧ s.queue = [2] ∧ s.started = [1] ∧ s.pool = 0 ∧ (∀ p ∈ s.threads, p = .idle) ∧ executors s = 0 := by
  have r0 := first_running 1 (by decide) 0
  have r1 := Reach.step _ _ r0 (.post _ 0 2 rfl rfl)
  have r2 := Reach.step _ _ r1 (.cas _ 0 2 rfl rfl (by simp))
  simp only [raises_second, wrap_one.2.1, List.set_cons_zero] at r2
  have r3 := Reach.step _ _ r2 (.exEndTask _ 1 1 rfl)
  have r4 := Reach.step _ _ r3 (.exSub _ 1 rfl)
  simp only [Bool.toNat_false, Nat.add_zero, leaves_two, wrap_one.2.2.1, List.set_cons_succ, List.set_cons_zero] at r4
  have r5 := Reach.step _ _ r4 (.exCheck _ 1 rfl)
  have r6 := Reach.step _ _ r5 (.exIntr _ 1 rfl)
  have r7 := Reach.step _ _ r6 (.exPopLock _ 1 rfl rfl)
  have r8 := Reach.step _ _ r7 (.exPopNone _ 1 rfl rfl (by simp))
  have r9 := Reach.step _ _ r8 (.exUnpopNone _ 1 rfl)
  have r10 := Reach.step _ _ r9 (.exBreak _ 1 rfl)
  have r11 := Reach.step _ _ r10 (.exLeave _ 1 rfl)
  have r12 := Reach.step _ _ r11 (.push _ 0 2 false rfl)
  have r13 := Reach.step _ _ r12 (.unlock _ 0 false rfl)
  exact ⟨_, r13, rfl, rfl, rfl, rfl, rfl, by simp, rfl⟩

/-- C63 fails: threads 0 and 2 have passed the check of the stop bit; thread 0 holds the push lock; `Interrupt` is called; the executor cleans up, and its `Exchange` clears the push lock that
thread 0 holds; thread 2 takes it: both are inside `Push` of a queue made for one producer. -/
theorem C63_two_producers_fails : ∃ s, Reach 1 false s ∧ s.threads[0]? = some (.pushing 2 false) ∧ ∃ b, s.threads[2]? = some (.pushing 3 b) := by
  have r0 := first_running 1 (by decide) 1
  have r1 := Reach.step _ _ r0 (.post _ 0 2 rfl rfl)
  have r1' := Reach.step _ _ r1 (.post _ 2 3 rfl rfl)
  have r2 := Reach.step _ _ r1' (.cas _ 0 2 rfl rfl (by simp))
  simp only [raises_second, wrap_one.2.1, List.set_cons_zero] at r2
  have r3 := Reach.step _ _ r2 (.exEndTask _ 1 1 rfl)
  have r4 := Reach.step _ _ r3 (.exSub _ 1 rfl)
  simp only [Bool.toNat_false, Nat.add_zero, leaves_two, wrap_one.2.2.1, List.set_cons_succ, List.set_cons_zero] at r4
  have r5 := Reach.step _ _ r4 (.interrupt _)
  have r6 := Reach.step _ _ r5 (.exCheck _ 1 rfl)
  have r7 := Reach.step _ _ r6 (.exIntr _ 1 rfl)
  have r8 := Reach.step _ _ r7 (.exBreak _ 1 rfl)
  have r9 := Reach.step _ _ r8 (.exCleanup _ 1 rfl (.inr (.inl rfl)))
  have r10 := Reach.step _ _ r9 (.cleanLock _ 1 rfl rfl)
  have r11 := Reach.step _ _ r10 (.cleanEnd _ 1 rfl rfl)
  have r12 := Reach.step _ _ r11 (.cas _ 2 3 rfl rfl (by simp))
  exact ⟨_, r12, rfl, _, rfl⟩

/-- C48 for the parallel runner: a post that has passed the check of the stop bit is accepted later. Here `Join` finds the counter 0 and returns success (200-204), and then the task is accepted and
runs. -/
theorem C48_parallel_late_fails : ∃ s s' s'', Reach 1 false s ∧ s.word.cnt = 0 ∧ s' = { s with word := { s.word with stop := true } } ∧ Reach 1 false s' ∧
    Reach 1 false s'' ∧ s''.word.stop = true ∧ s''.threads = [.idle, .exRunning 1] ∧ s'.started = [] ∧ s''.started = [1] := by
  have r0 : Reach 1 false { threads := [.idle, .idle] } := .init _ ⟨2, rfl⟩
  have r1 := Reach.step _ _ r0 (.post _ 0 1 rfl rfl)
  have r1' := Reach.step _ _ r1 (.join _)
  have r2 := Reach.step _ _ r1' (.cas _ 0 1 rfl rfl (by simp))
  simp only [raises_first 1 (by decide), wrap_one.1, List.set_cons_zero] at r2
  have r3 := Reach.step _ _ r2 (.push _ 0 1 true rfl)
  have r4 := Reach.step _ _ r3 (.unlock _ 0 true rfl)
  have r5 := Reach.step _ _ r4 (.schedule _ 0 rfl)
  have r6 := Reach.step _ _ r5 (.exStart _ 1 rfl (by simp))
  have r7 := Reach.step _ _ r6 (.exCheck _ 1 rfl)
  have r8 := Reach.step _ _ r7 (.exIntr _ 1 rfl)
  have r9 := Reach.step _ _ r8 (.exPopLock _ 1 rfl rfl)
  have r10 := Reach.step _ _ r9 (.exPop _ 1 1 [] rfl rfl (by simp))
  have r11 := Reach.step _ _ r10 (.exUnpop _ 1 1 rfl)
  have r12 := Reach.step _ _ r11 (.exStartTask _ 1 1 rfl)
  exact ⟨_, _, _, r1, rfl, rfl, r1', r12, rfl, rfl, rfl, rfl⟩

/-- a calm state with a queued task -/
theorem C64_case : ∃ s, Reach 3 true s ∧ s.word.stop = false ∧ s.shared = true ∧ s.queue = [7] ∧ executors s = 1 := by
  have r0 : Reach 3 true { threads := [.idle] } := .init _ ⟨1, rfl⟩
  have r1 := Reach.step _ _ r0 (.post _ 0 7 rfl rfl)
  have r2 := Reach.step _ _ r1 (.cas _ 0 7 rfl rfl (by intro _; unfold cntHalf; decide))
  simp only [raises_first 3 (by decide), wrap_one.1, List.set_cons_zero] at r2
  have r3 := Reach.step _ _ r2 (.push _ 0 7 true rfl)
  exact ⟨_, r3, rfl, rfl, rfl, rfl⟩

#print axioms C46_maximum
#print axioms C46_configured
#print axioms C46_counter
#print axioms C46_case
#print axioms C63_single_consumer
#print axioms C63_single_producer_partial
#print axioms C63_two_producers_fails
#print axioms C64_executors_partial
#print axioms C64_no_lost_wakeup_partial
#print axioms C64_fails
#print axioms C64_case
#print axioms C48_parallel_late_fails

end Verif.Parallel
