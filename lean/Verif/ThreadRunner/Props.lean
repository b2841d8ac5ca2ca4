import Verif.ThreadRunner.Wake
set_option linter.unusedVariables false
namespace Verif.ThreadRunner
open Verif.Common

/-- a thread that is not inside `PostTaskInternal` -/
def NotPosting (p : PC) : Prop := p = .idle ∨ p = .joining

/-- **C47** (first half): when the thread waits for input, the runner was not terminated, no wake-up message is pending and no post is in progress, then the task queue is empty.
Holds in both loops with any nesting of loops started by queue tasks.
Missing: loops started from a message, timer or wait callback, timer callbacks that remove messages, and the other operand order at line 294 (the `_fails` theorems below). -/
theorem C47_no_lost_wakeup_partial {bg E} (h1 : E.nestCb = false) (h2 : E.timerPump = false) (h3 : E.early = false) {s : St} (h : Reach bg E s)
    (hc : s.cleaned = false) (hp : s.pc = .sleep) (hm : s.msgs = 0) (ht : ∀ p ∈ s.threads, NotPosting p) : s.queue = [] := by
  have hC := reach_invC h1 h hc
  have hW := (reach_invW h1 h2 h3 h).wk hc (by rw [hp]; rfl) (hC.idle (by rw [hp]; rfl)) (hC.slp (by rw [hp]; rfl))
  have hq := hC.slp (by rw [hp]; rfl)
  have hu : sumBy unc s.threads = 0 := (sumBy_eq_zero _ _).2 fun p hp => by
    rcases ht p hp with rfl | rfl <;> rfl
  have h4 := hC.count
  rw [hp, show isRun RPC.sleep = 0 from rfl] at h4
  refine Classical.byContradiction fun hne => ?_
  have hl : 0 < s.queue.length := List.length_pos_iff.2 hne
  rcases hW (by omega) with h0 | ⟨i, p, hi, hw⟩
  · omega
  · rcases ht p (List.mem_of_getElem? hi) with rfl | rfl <;> exact absurd hw (not_waker nofun nofun)

/-- **C47** (first half, with posts in progress): if a task is queued while the thread waits, a wake-up message is pending or some poster has not yet finished its post. -/
theorem C47_wakeup_in_flight_partial {bg E} (h1 : E.nestCb = false) (h2 : E.timerPump = false) (h3 : E.early = false) {s : St} (h : Reach bg E s)
    (hc : s.cleaned = false) (hp : s.pc = .sleep) (hq : s.queue ≠ []) :
    0 < s.msgs ∨ (∃ p ∈ s.threads, ¬ NotPosting p) := by
  refine Classical.byContradiction fun hn => ?_
  refine hq (C47_no_lost_wakeup_partial h1 h2 h3 h hc hp ?_ ?_)
  · refine Classical.byContradiction fun h0 => hn (.inl (by omega))
  · intro p hp
    refine Classical.byContradiction fun h0 => hn (.inr ⟨p, hp, h0⟩)

/-- every poster that has raised the counter of a waiting runner from "nothing to run" decides to wake it: after `Add` the comparison at line 294 succeeds -/
theorem C47_first_post_wakes_partial {bg E} (h1 : E.nestCb = false) {s : St} (h : Reach bg E s) (hc : s.cleaned = false) (hp : s.pc = .sleep)
    {i : Nat} (hi : s.threads[i]? = some .pushed) (hb : s.word.cnt + 1 < m28) (hq : s.word.cnt = s.stack.length) :
    s.word.add15.raw < 16 * (2 + s.r) := by
  have hA := reach_invA h
  have hl : s.word.lock = true := by
    have := (sums_of hi .idle).lp
    have := hA.lock hc
    have e : isProd PC.pushed = 1 := rfl
    cases hl : s.word.lock with
    | true => rfl
    | false => rw [hl, show false.toNat = 0 from rfl] at this; omega
  have hr := hA.rr
  rw [hp, show inLoop RPC.sleep = 1 from rfl] at hr
  rw [raw_lt, add15_locked hl hb]
  dsimp only
  omega

/-- **C47** (second half): when the thread decides to pop a task the queue is not empty, so `Pop` never returns nullptr there.
Missing: loops started from a callback that is not a queue task (`C47_nested_callback_fails`). -/
theorem C47_pop_partial {bg E} (h1 : E.nestCb = false) {s : St} (h : Reach bg E s) (hc : s.cleaned = false) :
    s.nullPop = false ∧ (s.pc = .pop → s.queue ≠ []) := by
  have hC := reach_invC h1 h hc
  refine ⟨hC.null, fun hp hq => ?_⟩
  have a := hC.count
  have b := hC.hi
  have c := hC.ready (by rw [hp]; rfl)
  rw [hp, hq, show isRun RPC.pop = 0 from rfl] at a
  simp only [List.length_nil] at a
  omega

/-- **C65**: until the runner is terminated, the tasks are started in the order in which they were queued, each once, and no queued task disappears. -/
theorem C65_order {bg E} {s : St} (h : Reach bg E s) (hc : s.cleaned = false) : s.pushedLog = s.started ++ s.queue :=
  (reach_invA h).log hc

/-- **C65**: at most one thread is inside the section of the push lock: the queue has one producer at a time. -/
theorem C65_one_producer {bg E} {s : St} (h : Reach bg E s) (hc : s.cleaned = false) {i j : Nat} {p q : PC}
    (hi : s.threads[i]? = some p) (hj : s.threads[j]? = some q)
    (hp : (∃ t, p = .locked t) ∨ p = .pushed ∨ ∃ r, p = .pushedR r) (hq : (∃ t, q = .locked t) ∨ q = .pushed ∨ ∃ r, q = .pushedR r) : i = j := by
  have hl := (reach_invA h).lock hc
  have e1 : isProd p = 1 := by rcases hp with ⟨t, rfl⟩ | rfl | ⟨t, rfl⟩ <;> rfl
  have e2 : isProd q = 1 := by rcases hq with ⟨t, rfl⟩ | rfl | ⟨t, rfl⟩ <;> rfl
  refine Classical.byContradiction fun hij => ?_
  have := add_le_sumBy isProd s.threads i j p q hij hi hj
  have := s.word.lock.toNat_le
  omega

/-- **C65**: only the loop of the innermost nesting level pops: the number of active loops is the number of suspended pieces of user code plus one. -/
theorem C65_levels {bg E} {s : St} (h : Reach bg E s) : s.pc ≠ .out → s.pc ≠ .cleanup → s.r = s.stack.length + 1 := by
  intro h1 h2
  have hr := (reach_invA h).rr
  have : inLoop s.pc = 1 := by
    cases hp : s.pc <;> first | rfl | exact absurd hp h1 | exact absurd hp h2
  omega

/-- reading the 32-bit word: equal numbers have equal fields -/
theorem raw_inj {w v : Word} (h : w.raw = v.raw) : w = v := by
  obtain ⟨a, b, c, d, e⟩ := w
  obtain ⟨a', b', c', d', e'⟩ := v
  simp only [Word.raw] at h
  have := a.toNat_le; have := b.toNat_le; have := c.toNat_le; have := d.toNat_le
  have := a'.toNat_le; have := b'.toNat_le; have := c'.toNat_le; have := d'.toNat_le
  have ha : a.toNat = a'.toNat := by omega
  have hb : b.toNat = b'.toNat := by omega
  have hc : c.toNat = c'.toNat := by omega
  have hd : d.toNat = d'.toNat := by omega
  have he : e = e' := by omega
  have f : ∀ {x y : Bool}, x.toNat = y.toNat → x = y := by decide
  rw [f ha, f hb, f hc, f hd, he]

/-- steps other than `Interrupt`, loss of the last reference and WM_QUIT -/
def Undisturbed (s s' : St) : Prop := s'.word.intr = s.word.intr ∧ s'.shared = s.shared ∧ ¬(s.pc = .peek ∧ s'.pc = .ret) ∧ ¬(s.pc = .drain ∧ s'.pc = .ret)

/-- states reached from `s` by such steps -/
inductive Later (bg : Bool) (E : Env) (s : St) : St → Prop
  | refl : Later bg E s s
  | step (a b : St) (h : Later bg E s a) (hs : Step bg E a b) (hu : Undisturbed a b) : Later bg E s b

/-- **C48** (thread runner): a `Join` that has to wait is waiting for the number 6, which only an interrupted loop or a loop that has ended writes. In every continuation without those it waits for
ever, although all tasks have run. -/
theorem C48_thread_join_stuck {bg E} {s u : St} (h : Later bg E s u) (hi : s.word.intr = false) : u.word.intr = false ∧ u.word.raw ≠ terminated.raw := by
  have hu : u.word.intr = false := by
    induction h with
    | refl => exact hi
    | step a b _ _ hu ih => rw [hu.1]; exact ih
  refine ⟨hu, fun he => ?_⟩
  have := raw_inj he
  rw [this] at hu
  cases hu

def start (bg : Bool) (n : Nat) : St := { word := { bg := bg }, threads := List.replicate n .idle }
theorem reach_start (bg E n) : Reach bg E (start bg n) := .init _ ⟨n, rfl⟩

/-- one post by thread `i` that is woken up afterwards -/
theorem post_wake {bg E} {s : St} (h : Reach bg E s) (i t : Nat) (hi : s.threads[i]? = some .idle) (hs : s.word.stop = false) (hl : s.word.lock = false)
    (hb : s.word.cnt + 1 < m28) (hr : s.word.cnt + 1 < 2 + s.r) :
    Reach bg E { s with word := { s.word with cnt := s.word.cnt + 1 }, queue := s.queue ++ [t], pushedLog := s.pushedLog ++ [t], msgs := s.msgs + 1 } := by
  have hlen : i < s.threads.length := (List.getElem?_eq_some_iff.1 hi).1
  have r1 := Reach.step _ _ h (.post _ i t hi hs)
  have r2 := Reach.step _ _ r1 (.lock _ i t (List.getElem?_set_self hlen) hl)
  have r3 := Reach.step _ _ r2 (.push _ i t (List.getElem?_set_self (by simpa using hlen)))
  have r4 := Reach.step _ _ r3 (.add _ i (List.getElem?_set_self (by simpa using hlen)) hb)
  have r5 := Reach.step _ _ r4 (.compare _ i _ (List.getElem?_set_self (by simpa using hlen)))
  have e : ({ s.word with lock := true } : Word).add15 = { s.word with cnt := s.word.cnt + 1 } := by
    rw [add15_locked (w := { s.word with lock := true }) rfl hb, ← hl]
  dsimp only at r5
  have hlt : ({ s.word with lock := true } : Word).add15.raw < 16 * (2 + s.r) := by rw [raw_lt, e]; exact hr
  rw [if_pos hlt] at r5
  have r6 := Reach.step _ _ r5 (.wake _ i (List.getElem?_set_self (by simpa using hlen)))
  dsimp only at r6
  rw [e] at r6
  simp only [List.set_set] at r6
  have e3 : s.threads.set i .idle = s.threads := by
    apply List.ext_getElem? ; intro j
    by_cases hj : i = j
    · subst hj; rw [List.getElem?_set_self hlen]; exact hi.symm
    · rw [List.getElem?_set_ne hj]
  rw [e3] at r6
  exact r6

/-- **C47** fails when a nested loop is started from a callback that is not a queue task: the UI loop dispatches a window message, its handler calls `RunUIMessageLoop`, one task is posted: the thread
waits although the task is queued, no message is pending and no post is in progress. -/
theorem C47_nested_callback_fails : ∃ s, Reach false { nestCb := true } s ∧ s.cleaned = false ∧ s.pc = .sleep ∧ s.msgs = 0 ∧ (∀ p ∈ s.threads, NotPosting p) ∧ s.queue = [7] := by
  have r0 := reach_start false { nestCb := true } 1
  have r1 := Reach.step _ _ r0 (.enter _ rfl)
  have r2 := Reach.step _ _ r1 (.peekChk _ rfl)
  have r3 := Reach.step _ _ r2 (.peekMsg _ rfl)
  have r4 := Reach.step _ _ r3 (.nestCb _ .msg rfl rfl)
  have r5 := post_wake r4 0 7 rfl rfl rfl (by unfold m28; decide) (by decide)
  have r6 := Reach.step _ _ r5 (.peekChk _ rfl)
  have r7 := Reach.step _ _ r6 (.peekWake _ rfl (by decide))
  have r8 := Reach.step _ _ r7 (.peekChk _ rfl)
  have r9 := Reach.step _ _ r8 (.peekNone _ rfl rfl)
  have r10 := Reach.step _ _ r9 (.load _ rfl)
  have r11 := Reach.step _ _ r10 (.chk _ rfl)
  have r12 := Reach.step _ _ r11 (.decIdle _ rfl (by decide +kernel))
  have r13 := Reach.step _ _ r12 (.sub0 _ rfl rfl)
  have r14 := Reach.step _ _ r13 (.timerDone _ rfl)
  refine ⟨_, r14, rfl, rfl, rfl, fun p hp => ?_, rfl⟩
  simp [start] at hp
  exact .inl hp

/-- **C47** second half fails likewise: with an empty queue the nested loop decides to pop. -/
theorem C47_nested_callback_pop_fails : ∃ s, Reach false { nestCb := true } s ∧ s.cleaned = false ∧ s.pc = .pop ∧ s.queue = [] := by
  have r0 := reach_start false { nestCb := true } 1
  have r1 := Reach.step _ _ r0 (.enter _ rfl)
  have r2 := Reach.step _ _ r1 (.peekChk _ rfl)
  have r3 := Reach.step _ _ r2 (.peekMsg _ rfl)
  have r4 := Reach.step _ _ r3 (.nestCb _ .msg rfl rfl)
  have r5 := Reach.step _ _ r4 (.peekChk _ rfl)
  have r6 := Reach.step _ _ r5 (.peekNone _ rfl rfl)
  have r7 := Reach.step _ _ r6 (.load _ rfl)
  have r8 := Reach.step _ _ r7 (.chk _ rfl)
  have r9 := Reach.step _ _ r8 (.decRun _ rfl (by decide +kernel))
  exact ⟨_, r9, rfl, rfl, rfl⟩

/-- **C47** fails when a timer callback removes messages (a modal dialog, say): the wake-up message of a task posted meanwhile is lost. -/
theorem C47_timer_pump_fails : ∃ s, Reach false { timerPump := true } s ∧ s.cleaned = false ∧ s.pc = .sleep ∧ s.msgs = 0 ∧ (∀ p ∈ s.threads, NotPosting p) ∧ s.queue = [7] := by
  have r0 := reach_start false { timerPump := true } 1
  have r1 := Reach.step _ _ r0 (.enter _ rfl)
  have r2 := Reach.step _ _ r1 (.peekChk _ rfl)
  have r3 := Reach.step _ _ r2 (.peekNone _ rfl rfl)
  have r4 := Reach.step _ _ r3 (.load _ rfl)
  have r5 := Reach.step _ _ r4 (.chk _ rfl)
  have r6 := Reach.step _ _ r5 (.decIdle _ rfl (by decide +kernel))
  have r7 := Reach.step _ _ r6 (.sub0 _ rfl rfl)
  have r8 := Reach.step _ _ r7 (.timerCb _ rfl)
  have r9 := post_wake r8 0 7 rfl rfl rfl (by unfold m28; decide) (by decide)
  have r10 := Reach.step _ _ r9 (.pumpCb _ .timer rfl (fun _ => rfl) (by decide))
  have r11 := Reach.step _ _ r10 (.cbEnd _ .timer rfl)
  have r12 := Reach.step _ _ r11 (.timerDone _ rfl)
  refine ⟨_, r12, rfl, rfl, rfl, fun p hp => ?_, rfl⟩
  simp [start] at hp
  exact .inl hp

/-- **C47** fails when `uTaskRunnerReentryCount` is read before the `Add` (the operands of `<` at line 294 are unsequenced): two queued tasks start nested loops between the read and the addition. -/
theorem C47_early_read_fails : ∃ s, Reach false { early := true } s ∧ s.cleaned = false ∧ s.pc = .sleep ∧ s.msgs = 0 ∧ (∀ p ∈ s.threads, NotPosting p) ∧ s.queue = [9] := by
  have r0 := reach_start false { early := true } 1
  have r1 := post_wake r0 0 7 rfl rfl rfl (by unfold m28; decide) (by decide)
  have r2 := Reach.step _ _ r1 (.enter _ rfl)
  have r3 := post_wake r2 0 8 rfl rfl rfl (by unfold m28; decide) (by decide)
  have r4 := Reach.step _ _ r3 (.peekChk _ rfl)
  have r5 := Reach.step _ _ r4 (.peekWake _ rfl (by decide))
  have r6 := Reach.step _ _ r5 (.peekChk _ rfl)
  have r7 := Reach.step _ _ r6 (.peekWake _ rfl (by decide))
  have r8 := Reach.step _ _ r7 (.peekChk _ rfl)
  have r9 := Reach.step _ _ r8 (.peekNone _ rfl rfl)
  have r10 := Reach.step _ _ r9 (.load _ rfl)
  have r11 := Reach.step _ _ r10 (.chk _ rfl)
  have r12 := Reach.step _ _ r11 (.decRun _ rfl (by decide +kernel))
  have r13 := Reach.step _ _ r12 (.pop _ 7 [8] rfl rfl)
  -- the third poster pushes and reads the count of loops
  have r14 := Reach.step _ _ r13 (.post _ 0 9 rfl rfl)
  have r15 := Reach.step _ _ r14 (.lock _ 0 9 rfl rfl)
  have r16 := Reach.step _ _ r15 (.push _ 0 9 rfl)
  have r17 := Reach.step _ _ r16 (.readEarly _ 0 rfl rfl)
  -- task 7 starts a nested loop, which runs task 8, which starts another one
  have r18 := Reach.step _ _ r17 (.nestTask _ 7 rfl)
  have r19 := Reach.step _ _ r18 (.peekChk _ rfl)
  have r20 := Reach.step _ _ r19 (.peekNone _ rfl rfl)
  have r21 := Reach.step _ _ r20 (.load _ rfl)
  have r22 := Reach.step _ _ r21 (.chk _ rfl)
  have r23 := Reach.step _ _ r22 (.decRun _ rfl (by decide +kernel))
  have r24 := Reach.step _ _ r23 (.pop _ 8 [9] rfl rfl)
  have r25 := Reach.step _ _ r24 (.nestTask _ 8 rfl)
  have r26 := Reach.step _ _ r25 (.peekChk _ rfl)
  have r27 := Reach.step _ _ r26 (.peekNone _ rfl rfl)
  have r28 := Reach.step _ _ r27 (.load _ rfl)
  have r29 := Reach.step _ _ r28 (.chk _ rfl)
  have r30 := Reach.step _ _ r29 (.decIdle _ rfl (by decide +kernel))
  have r31 := Reach.step _ _ r30 (.sub0 _ rfl rfl)
  have r32 := Reach.step _ _ r31 (.timerDone _ rfl)
  have r33 := Reach.step _ _ r32 (.addEarly _ 0 1 rfl (by unfold m28; decide))
  refine ⟨_, r33, rfl, rfl, rfl, ?_, rfl⟩
  intro p hp
  have hlt : ¬ (({ bg := false, lock := true, cnt := 2 } : Word).add15.raw < 16 * (2 + 1)) := by decide +kernel
  left
  dsimp only [start] at hp
  simp only [List.replicate, List.set, List.mem_singleton] at hp
  rw [hp]
  exact if_neg hlt

/-- A case that meets the premises of `C47_no_lost_wakeup_partial`, with a nested loop inside task 7: the thread waits in the nested loop, the post of task 8 leaves a wake-up message. -/
theorem C47_case : (∃ s, Reach false {} s ∧ s.cleaned = false ∧ s.pc = .sleep ∧ s.msgs = 0 ∧ (∀ p ∈ s.threads, NotPosting p) ∧ s.stack = [.task 7])
    ∧ ∃ s, Reach false {} s ∧ s.cleaned = false ∧ s.pc = .sleep ∧ s.msgs = 1 ∧ s.queue = [8] ∧ s.stack = [.task 7] ∧ s.started = [7] := by
  have r0 := reach_start false {} 1
  have r1 := post_wake r0 0 7 rfl rfl rfl (by unfold m28; decide) (by decide)
  have r2 := Reach.step _ _ r1 (.enter _ rfl)
  have r4 := Reach.step _ _ r2 (.peekChk _ rfl)
  have r5 := Reach.step _ _ r4 (.peekWake _ rfl (by decide))
  have r8 := Reach.step _ _ r5 (.peekChk _ rfl)
  have r9 := Reach.step _ _ r8 (.peekNone _ rfl rfl)
  have r10 := Reach.step _ _ r9 (.load _ rfl)
  have r11 := Reach.step _ _ r10 (.chk _ rfl)
  have r12 := Reach.step _ _ r11 (.decRun _ rfl (by decide +kernel))
  have r13 := Reach.step _ _ r12 (.pop _ 7 [] rfl rfl)
  have r18 := Reach.step _ _ r13 (.nestTask _ 7 rfl)
  have r19 := Reach.step _ _ r18 (.peekChk _ rfl)
  have r20 := Reach.step _ _ r19 (.peekNone _ rfl rfl)
  have r21 := Reach.step _ _ r20 (.load _ rfl)
  have r22 := Reach.step _ _ r21 (.chk _ rfl)
  have r30 := Reach.step _ _ r22 (.decIdle _ rfl (by decide +kernel))
  have r31 := Reach.step _ _ r30 (.sub0 _ rfl rfl)
  have r32 := Reach.step _ _ r31 (.timerDone _ rfl)
  have r33 := post_wake r32 0 8 rfl rfl rfl (by show 1 + 1 < m28; unfold m28; decide) (by decide)
  refine ⟨⟨_, r32, rfl, rfl, rfl, fun p hp => ?_, rfl⟩, _, r33, rfl, rfl, rfl, rfl, rfl, rfl⟩
  simp [start] at hp
  exact .inl hp

/-- **C48** fails for the thread runner: task 7 is pending when `Join` is called; it runs to its end, nothing is queued, and the thread waits for input; by `C48_thread_join_stuck` the caller of `Join`
waits for ever unless somebody interrupts the runner, drops it, or quits its loop. -/
theorem C48_thread_join_fails : ∃ s, Reach false {} s ∧ s.pc = .sleep ∧ s.queue = [] ∧ s.started = [7] ∧ s.proc = 0 ∧ s.word.intr = false ∧ s.threads = [.joining] := by
  have r0 := reach_start false {} 1
  have r1 := post_wake r0 0 7 rfl rfl rfl (by unfold m28; decide) (by decide)
  have r2 := Reach.step _ _ r1 (.join _ 0 rfl)
  have r3 := Reach.step _ _ r2 (.enter _ rfl)
  have r4 := Reach.step _ _ r3 (.peekChk _ rfl)
  have r5 := Reach.step _ _ r4 (.peekWake _ rfl (by decide))
  have r8 := Reach.step _ _ r5 (.peekChk _ rfl)
  have r9 := Reach.step _ _ r8 (.peekNone _ rfl rfl)
  have r10 := Reach.step _ _ r9 (.load _ rfl)
  have r11 := Reach.step _ _ r10 (.chk _ rfl)
  have r12 := Reach.step _ _ r11 (.decRun _ rfl (by decide +kernel))
  have r13 := Reach.step _ _ r12 (.pop _ 7 [] rfl rfl)
  have r14 := Reach.step _ _ r13 (.runEnd _ 7 rfl)
  have r15 := Reach.step _ _ r14 (.chk _ rfl)
  have r16 := Reach.step _ _ r15 (.decIdle _ rfl (by decide +kernel))
  have r17 := Reach.step _ _ r16 (.sub _ rfl (by decide))
  have r18 := Reach.step _ _ r17 (.timerDone _ (by decide +kernel))
  exact ⟨_, r18, rfl, rfl, rfl, rfl, rfl, rfl⟩

/-- **C48** fails for the thread runner: a post that holds the push lock while the runner terminates turns the stop bit off and leaves the push lock set: the task stays in the queue unrun, and later
posts pass the stop check and spin on the lock. -/
theorem C48_thread_terminate_fails : ∃ s, Reach false {} s ∧ s.cleaned = true ∧ s.pc = .out ∧ s.word.stop = false ∧ s.word.lock = true ∧ s.queue = [7] ∧ s.started = []
    ∧ s.threads = [.added 21] := by
  have r0 := reach_start false {} 1
  have r1 := Reach.step _ _ r0 (.enter _ rfl)
  have r2 := Reach.step _ _ r1 (.post _ 0 7 rfl rfl)
  have r3 := Reach.step _ _ r2 (.lock _ 0 7 rfl rfl)
  have r4 := Reach.step _ _ r3 (.interrupt _)
  have r5 := Reach.step _ _ r4 (.peekChk _ rfl)
  have r6 := Reach.step _ _ r5 (.peekNone _ rfl rfl)
  have r7 := Reach.step _ _ r6 (.load _ rfl)
  have r8 := Reach.step _ _ r7 (.chk _ rfl)
  have r9 := Reach.step _ _ r8 (.leaveClean _ rfl (.inr (.inl rfl)))
  have r10 := Reach.step _ _ r9 (.cleanEnd _ rfl rfl)
  have r11 := Reach.step _ _ r10 (.push _ 0 7 rfl)
  have r12 := Reach.step _ _ r11 (.add _ 0 rfl (by show 0 + 1 < m28; unfold m28; decide))
  exact ⟨_, r12, rfl, rfl, rfl, rfl, rfl, rfl, by decide +kernel⟩

end Verif.ThreadRunner
