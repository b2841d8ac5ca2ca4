import Verif.Sequenced.Model
set_option linter.unusedSimpArgs false
set_option linter.unusedVariables false
namespace Verif.Sequenced
open Verif.Common

/-! ## The record of bit fields and the packed 32-bit word agree -/

/-- `_fFlags < WakeupOnceRaw` -/
theorem raw_lt (w : Word) : w.raw < 8 ↔ w.cnt = 0 := by
  obtain ⟨l, s, i, c⟩ := w; cases l <;> cases s <;> cases i <;> simp [Word.raw, Bool.toNat] <;> omega

theorem raw_inj (w v : Word) : w.raw = v.raw ↔ w = v := by
  obtain ⟨l, s, i, c⟩ := w; obtain ⟨l', s', i', c'⟩ := v
  cases l <;> cases s <;> cases i <;> cases l' <;> cases s' <;> cases i' <;> simp [Word.raw, Bool.toNat] <;> omega

/-- `_fFlags + LockQueuePushLockAndWakeupOnceRaw` -/
theorem raw_cas (w : Word) (h : w.lock = false) : ({ w with lock := true, cnt := w.cnt + 1 } : Word).raw = w.raw + 9 := by
  simp [Word.raw, h]; omega

theorem raw_lock (w : Word) : w.raw.testBit 0 = w.lock := by
  obtain ⟨l, s, i, c⟩ := w
  rw [Nat.testBit_eq_decide_div_mod_eq]
  cases l <;> cases s <;> cases i <;> simp [Word.raw, Bool.toNat] <;> omega

theorem raw_stop (w : Word) : w.raw.testBit 1 = w.stop := by
  obtain ⟨l, s, i, c⟩ := w
  rw [Nat.testBit_eq_decide_div_mod_eq]
  cases l <;> cases s <;> cases i <;> simp [Word.raw, Bool.toNat] <;> omega
theorem raw_intr (w : Word) : w.raw.testBit 2 = w.intr := by
  obtain ⟨l, s, i, c⟩ := w
  rw [Nat.testBit_eq_decide_div_mod_eq]
  have h1 := l.toNat_le
  have h2 := s.toNat_le
  cases i
  · apply decide_eq_false; simp only [Word.raw, Bool.toNat_false]; omega
  · apply decide_eq_true; simp only [Word.raw, Bool.toNat_true]; omega

theorem sub_mod (c r : Nat) (h : c < 536870912) (hr : r < 8) :
    r + 8 * ((c + 536870912 - 1) % 536870912) = (r + 8 * c + 4294967296 - 8) % 4294967296 := by
  omega

/-- `Subtract(&word, WakeupOnceRaw)` on 32 bits -/
theorem raw_sub (w : Word) (h : w.cnt < cntMod) :
    ({ w with cnt := (w.cnt + cntMod - 1) % cntMod } : Word).raw = (w.raw + 4294967296 - 8) % 4294967296 := by
  unfold cntMod at *
  have hr : w.lock.toNat + 2 * w.stop.toNat + 4 * w.intr.toNat < 8 := by
    have := w.lock.toNat_le; have := w.stop.toNat_le; have := w.intr.toNat_le; omega
  have hm := sub_mod w.cnt _ h hr
  simp only [Word.raw]
  exact hm

theorem raw_terminate : terminate.raw = 6 := rfl

/-! ## Invariant -/

/-- a thread that is, or is committed to make, the one executor -/
def act : PC → Nat
  | .pushing _ b => b.toNat
  | .unlocking b => b.toNat
  | .schedule => 1
  | .exCheck => 1
  | .exPop => 1
  | .exTask _ => 1
  | .exRunning _ => 1
  | .exSub => 1
  | _ => 0
def isTask : PC → Nat
  | .exTask _ => 1
  | _ => 0
def isPushing : PC → Nat
  | .pushing _ _ => 1
  | _ => 0
def isProd : PC → Nat
  | .pushing _ _ => 1
  | .unlocking _ => 1
  | _ => 0
def inHand : PC → Nat
  | .exTask _ => 1
  | .exRunning _ => 1
  | .exSub => 1
  | _ => 0

structure Inv (s : St) : Prop where
  a1 : s.pool + sumBy act s.threads ≤ 1
  a2 : 0 < s.pool + sumBy act s.threads → 0 < s.word.cnt ∨ s.word.stop = true
  prod : sumBy isProd s.threads ≤ 1
  prodLock : 0 < sumBy isProd s.threads → s.word.lock = true ∨ s.word.stop = true
  intr : s.word.intr = true → s.word.stop = true
  task : ∀ (j : Nat) (t : Nat), s.threads[j]? = some (.exTask t) → s.taken = s.started ++ [t]
  noTask : sumBy isTask s.threads = 0 → s.taken = s.started
  fifo : s.dequeued ++ s.queue = s.pushed
  sub : s.taken.Sublist s.dequeued
  eq : s.cleaned = false → s.taken = s.dequeued

theorem act_le (p : PC) : act p ≤ 1 ∧ isTask p ≤ act p := by cases p <;> simp [act, isTask] <;> (rename_i b; cases b <;> simp)

theorem sumBy_replicate {α} (f : α → Nat) (x : α) (hx : f x = 0) (n : Nat) : sumBy f (List.replicate n x) = 0 := by
  induction n with
  | zero => rfl
  | succ n ih => simp [List.replicate_succ, ih, hx]

theorem inv_init {s} (h : Init s) : Inv s := by
  obtain ⟨n, rfl⟩ := h
  have e := fun f h => sumBy_replicate (α := PC) f .idle h n
  constructor
  case task => intro j t ht; simp [List.getElem?_replicate] at ht
  all_goals simp [e act rfl, e isProd rfl, e isTask rfl]

/-- effect of thread `i` going from `p` to `q` -/
structure Sums (l l' : List PC) (p q : PC) : Prop where
  act : sumBy act l' + act p = sumBy act l + act q
  prod : sumBy isProd l' + isProd p = sumBy isProd l + isProd q
  task : sumBy isTask l' + isTask p = sumBy isTask l + isTask q
  pushing : sumBy isPushing l' + isPushing p = sumBy isPushing l + isPushing q
  hand : sumBy inHand l' + inHand p = sumBy inHand l + inHand q
  la : Sequenced.act p ≤ sumBy Sequenced.act l
  lp : isProd p ≤ sumBy isProd l
  lt : isTask p ≤ sumBy isTask l

theorem sums_of {l : List PC} {i : Nat} {p : PC} (h : l[i]? = some p) (q : PC) : Sums l (l.set i q) p q :=
  ⟨sumBy_set _ _ _ _ _ h, sumBy_set _ _ _ _ _ h, sumBy_set _ _ _ _ _ h, sumBy_set _ _ _ _ _ h, sumBy_set _ _ _ _ _ h,
   le_sumBy _ _ _ _ h, le_sumBy _ _ _ _ h, le_sumBy _ _ _ _ h⟩

theorem get_set {l : List PC} {i j : Nat} {q t : PC} (h : (l.set i q)[j]? = some t) : (j = i ∧ t = q) ∨ (j ≠ i ∧ l[j]? = some t) := by
  by_cases hji : j = i
  · subst hji
    rw [List.getElem?_set] at h
    simp at h
    exact .inl ⟨rfl, h.2.symm⟩
  · rw [List.getElem?_set_ne (Ne.symm hji)] at h
    exact .inr ⟨hji, h⟩

/-- Thread `i` moves without touching tasks in hand or the observations. -/
theorem inv_move {s s' : St} (hI : Inv s) {i : Nat} {p q : PC} (h : s.threads[i]? = some p) (hs : s'.threads = s.threads.set i q)
    (ht : isTask p = 0) (hq : isTask q = 0)
    (a1 : s'.pool + sumBy act s.threads + act q ≤ 1 + act p)
    (a2 : act p < s'.pool + sumBy act s.threads + act q → 0 < s'.word.cnt ∨ s'.word.stop = true)
    (prod : sumBy isProd s.threads + isProd q ≤ 1 + isProd p)
    (prodLock : isProd p < sumBy isProd s.threads + isProd q → s'.word.lock = true ∨ s'.word.stop = true)
    (intr : s'.word.intr = true → s'.word.stop = true)
    (e1 : s'.taken = s.taken) (e2 : s'.started = s.started) (e3 : s'.dequeued = s.dequeued) (e5 : s'.dequeued ++ s'.queue = s'.pushed)
    (e6 : s'.cleaned = s.cleaned) : Inv s' := by
  have ⟨a1', a2', prod', prodLock', intr', task, noTask, fifo, sub, eq⟩ := hI
  obtain ⟨u1, u2, u3, u4, u5, l1, l2, l3⟩ := sums_of h q
  rw [← hs] at u1 u2 u3 u4 u5
  constructor
  case a1 => omega
  case a2 => intro h; exact a2 (by omega)
  case prod => omega
  case prodLock => intro h; exact prodLock (by omega)
  case intr => exact intr
  case task =>
    intro j t hj
    rw [hs] at hj
    rcases get_set hj with ⟨-, rfl⟩ | ⟨-, hj⟩
    · simp [isTask] at hq
    · rw [e1, e2]; exact task j t hj
  case noTask => intro h; rw [e1, e2]; exact noTask (by omega)
  case fifo => exact e5
  case sub => rw [e1, e3]; exact sub
  case eq => rw [e1, e3, e6]; exact eq

theorem inv_sub {s : St} (hI : Inv s) {i : Nat} (h : s.threads[i]? = some .exSub) (c : Nat) :
    Inv { s with word := { s.word with cnt := c },
                 threads := s.threads.set i (if s.word.intr || decide (c = 0) then .exExit else .exCheck) } := by
  have ⟨a1, a2, prod, prodLock, intr, task, noTask, fifo, sub, eq⟩ := hI
  have l1 := le_sumBy act _ _ _ h
  simp only [act] at l1
  cases hb : (s.word.intr || decide (c = 0))
  · simp only [hb, Bool.false_eq_true, if_false]
    simp at hb
    refine inv_move hI h rfl rfl rfl (by simp only [act]; omega) ?_ prod prodLock intr rfl rfl rfl fifo rfl
    intro _; left; simp only []; omega
  · simp only [hb, if_true]
    refine inv_move hI h rfl rfl rfl (by simp only [act]; omega) ?_ prod prodLock intr rfl rfl rfl fifo rfl
    intro hp; simp only [act] at hp; omega

theorem inv_step {calm} {s s'} (hI : Inv s) (hs : Step calm s s') : Inv s' := by
  have ⟨a1, a2, prod, prodLock, intr, task, noTask, fifo, sub, eq⟩ := hI
  cases hs with
  | post i t h => exact inv_move hI h rfl rfl rfl (by simp only [act]; omega) (fun hp => a2 (by simp only [act] at hp; omega)) prod prodLock intr rfl rfl rfl fifo rfl
  | refuse i t f h hf => exact inv_move hI h rfl rfl rfl (by simp only [act]; omega) (fun hp => a2 (by simp only [act] at hp; omega)) prod prodLock intr rfl rfl rfl fifo rfl
  | reload i t f h hf hl => exact inv_move hI h rfl rfl rfl (by simp only [act]; omega) (fun hp => a2 (by simp only [act] at hp; omega)) prod prodLock intr rfl rfl rfl fifo rfl
  | casFail i t f h hf hl hw => exact inv_move hI h rfl rfl rfl (by simp only [act]; omega) (fun hp => a2 (by simp only [act] at hp; omega)) prod prodLock intr rfl rfl rfl fifo rfl
  | casOk i t f h hf hl hw hb =>
    subst hw
    have p0 : sumBy isProd s.threads = 0 := by
      refine Classical.byContradiction fun hn => ?_
      rcases prodLock (by omega) with h | h <;> simp_all
    refine inv_move hI h rfl rfl rfl ?_ ?_ ?_ ?_ intr rfl rfl rfl fifo rfl
    · simp only [act]
      by_cases h0 : s.word.cnt = 0
      · have : s.pool + sumBy act s.threads = 0 := by
          refine Classical.byContradiction fun hn => ?_
          rcases a2 (by omega) with h | h <;> simp_all
        simp [h0]; omega
      · simp [h0]; omega
    · intro _; left; simp
    · simp [isProd]; omega
    · intro _; left; rfl
  | push i t b h =>
    refine inv_move hI h rfl rfl rfl (by simp only [act]; omega) (fun hp => a2 (by simp only [act] at hp; omega)) (by simp only [isProd]; omega)
      (fun hp => prodLock (by simp only [isProd] at hp; omega)) intr rfl rfl rfl ?_ rfl
    simp only []; rw [← fifo, List.append_assoc]
  | unlock i b h =>
    have u := sums_of h .idle
    have l2 := u.lp
    refine inv_move (q := if b then .schedule else .idle) hI h rfl rfl ?_ ?_ ?_ ?_ ?_ intr rfl rfl rfl fifo rfl
    · cases b <;> rfl
    · cases b <;> simp [act] <;> omega
    · intro hp; exact a2 (by cases b <;> simp [act] at hp <;> omega)
    · cases b <;> simp [isProd] <;> omega
    · intro hp; cases b <;> simp [isProd] at hp <;> omega
  | schedule i h =>
    refine inv_move hI h rfl rfl rfl ?_ ?_ prod prodLock intr rfl rfl rfl fifo rfl
    · simp [act]; omega
    · intro hp; simp [act] at hp; exact a2 (by omega)
  | scheduleFail i h =>
    refine inv_move hI h rfl rfl rfl ?_ ?_ prod ?_ ?_ rfl rfl rfl fifo rfl
    · simp [act]; omega
    · intro _; right; rfl
    · intro _; right; rfl
    · intro _; rfl
  | join => exact ⟨a1, fun _ => .inr rfl, prod, fun _ => .inr rfl, fun _ => rfl, task, noTask, fifo, sub, eq⟩
  | interrupt => exact ⟨a1, fun _ => .inr rfl, prod, fun _ => .inr rfl, fun _ => rfl, task, noTask, fifo, sub, eq⟩
  | unshare => exact ⟨a1, a2, prod, prodLock, intr, task, noTask, fifo, sub, eq⟩
  | exStart i h hp =>
    refine inv_move hI h rfl rfl rfl ?_ ?_ prod prodLock intr rfl rfl rfl fifo rfl
    · simp [act]; omega
    · intro hp; exact a2 (by omega)
  | exCheck i h => exact inv_move hI h rfl rfl rfl (by simp only [act]; omega) (fun hp => a2 (by simp only [act] at hp; omega)) prod prodLock intr rfl rfl rfl fifo rfl
  | exUnshared i h hs =>
    refine inv_move hI h rfl rfl rfl ?_ ?_ prod prodLock intr rfl rfl rfl fifo rfl
    · simp [act]; omega
    · intro hp; simp [act] at hp; exact a2 (by omega)
  | exPop i t q h hq hc =>
    obtain ⟨u1, u2, u3, u4, u5, l1, l2, l3⟩ := sums_of h (.exTask t)
    have hnt : sumBy isTask s.threads = 0 := by
      refine Classical.byContradiction fun hn => ?_
      obtain ⟨x, hx, h0⟩ := sumBy_pos isTask s.threads (by omega)
      obtain ⟨j, hj⟩ := List.getElem?_of_mem hx
      have hij : i ≠ j := by rintro rfl; rw [h] at hj; cases hj; simp [isTask] at h0
      have h1 := add_le_sumBy act s.threads i j _ _ hij h hj
      have h2 := (act_le x).2
      rw [show act .exPop = 1 from rfl] at h1; clear u1 u2 u3 u4 u5 l1 l2 l3; omega
    constructor
    case a1 => simp [act] at u1; simp only []; omega
    case a2 => simp [act] at u1; simp only []; intro hp; exact a2 (by omega)
    case prod => simp [isProd] at u2; simp only []; omega
    case prodLock => simp [isProd] at u2; simp only []; rw [u2]; exact prodLock
    case intr => exact intr
    case task =>
      intro j t' hj
      rcases get_set hj with ⟨-, h1⟩ | ⟨-, hj⟩
      · cases h1; simp only []; rw [noTask hnt]
      · have := le_sumBy isTask _ _ _ hj; simp [isTask] at this; omega
    case noTask => simp [isTask] at u3; simp only []; intro h; omega
    case fifo => simp only []; rw [← fifo, hq, List.append_assoc]; rfl
    case sub => exact sub.append (List.Sublist.refl [t])
    case eq => intro hc; simp only []; rw [eq hc]
  | exPopNone i h hq hc =>
    refine inv_move hI h rfl rfl rfl ?_ ?_ prod prodLock intr rfl rfl rfl fifo rfl
    · simp [act]; omega
    · intro hp; simp [act] at hp; exact a2 (by omega)
  | exStartTask i t h =>
    obtain ⟨u1, u2, u3, u4, u5, l1, l2, l3⟩ := sums_of h (.exRunning t)
    have ht := task i t h
    constructor
    case a1 => simp [act] at u1; simp only []; omega
    case a2 => simp [act] at u1; simp only []; intro hp; exact a2 (by omega)
    case prod => simp [isProd] at u2; simp only []; omega
    case prodLock => simp [isProd] at u2; simp only []; rw [u2]; exact prodLock
    case intr => exact intr
    case task =>
      intro j t' hj
      rcases get_set hj with ⟨-, h1⟩ | ⟨hne, hj⟩
      · cases h1
      · have := add_le_sumBy act s.threads i j _ _ (Ne.symm hne) h hj
        simp [act] at this; omega
    case noTask => intro _; exact ht
    case fifo => exact fifo
    case sub => exact sub
    case eq => exact eq
  | exEndTask i t h => exact inv_move hI h rfl rfl rfl (by simp only [act]; omega) (fun hp => a2 (by simp only [act] at hp; omega)) prod prodLock intr rfl rfl rfl fifo rfl
  | exSub i h => exact inv_sub hI h _
  | exLeave i h => exact inv_move hI h rfl rfl rfl (by simp only [act]; omega) (fun hp => a2 (by simp only [act] at hp; omega)) prod prodLock intr rfl rfl rfl fifo rfl
  | exCleanup i h hc => exact inv_move hI h rfl rfl rfl (by simp only [act]; omega) (fun hp => a2 (by simp only [act] at hp; omega)) prod prodLock intr rfl rfl rfl fifo rfl
  | cleanPop i t q h hq =>
    refine ⟨a1, a2, prod, prodLock, intr, task, noTask, ?_, ?_, ?_⟩
    · simp only []; rw [← fifo, hq, List.append_assoc]; rfl
    · exact sub.trans (List.sublist_append_left _ _)
    · intro h; cases h
  | cleanEnd i h hq =>
    refine inv_move hI h rfl rfl rfl (by simp only [act]; omega) ?_ prod ?_ ?_ rfl rfl rfl fifo rfl
    · intro _; right; rfl
    · intro _; right; rfl
    · intro _; rfl

theorem inv_reach {calm s} (h : Reach calm s) : Inv s := by
  induction h with
  | init s h => exact inv_init h
  | step s s' _ hs ih => exact inv_step ih hs

end Verif.Sequenced
