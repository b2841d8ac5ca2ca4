import Verif.ProxyTimer.Lemmas

/-!
# C113: the timers of a proxy runner fire

What a user relies on: once a timer is set, the thread is woken for it.  True if the timer was set by the thread itself (partial, with the limits of C41 and C42); false for a timer set by
another thread, and even the thread's own timer may come after twice its time.
-/
namespace Verif.ProxyTimer
open Verif.TimingWheel

/-- **C113.**  In every history (timers of any thread, nested callbacks and dialogs, cancellations), every timer given to the manager is at every moment exactly as often waiting, about to be dispatched
by a running `ExecuteTimerTasks`, or dispatched, as it was given. -/
theorem C113_exactly_once {K ok now s} (r : Reach K ok (start K now) s) (t : Tm) :
    waitCount s.m t + (pends s.stack).count t + (s.fired.map Prod.fst).count t = s.set.count t :=
  C43_exactly_once (world_reach r) t

/-- **C113 (partial: timers set by the thread itself).**  Whenever the thread is back in its own code, the runner knows the wake-up time of its manager; the window's timer runs if there is one, and not
otherwise.  For timers set by other threads: `C113_remote_fails`. -/
theorem C113_armed_partial {K ok now s} (hK : 0 < K) (ho : ∀ s e, ok s e → Own s e) (r : Reach K ok (start K now) s) (hi : s.stack = []) :
    s.known = wakeup s.m ∧ (s.os = none ↔ wakeup s.m = none) := by
  have c := (calls_reach ho r).sync
  have h : s.known = wakeup s.m := by
    rcases c with h | ⟨p, h⟩ | h
    · exact h
    · rw [hi] at h; cases h
    · rw [hi] at h; cases h
  refine ⟨h, ?_⟩
  rw [← h]
  have o := os_reach hK r
  unfold OsOk at o
  cases hs : s.os with
  | none => rw [hs] at o; simp [o]
  | some x => rw [hs] at o; obtain ⟨W, hW, _⟩ := o; simp [hW]

/-- **C113 (partial: timers set by the thread itself; `Fine` calls and the overflow list as in C42).**  If a timer waits while the thread is in its own code, the window's timer runs, and is meant for a time `W` no
later than the first multiple of 8 ms at or after the expiry.  The first `WM_TIMER` is due no later than `W` (or 10 ms after the call of `SetTimer`), and less than a millisecond before `W`
(unless the limit of the system, 2^31 - 1 ms, shortens the wait); one of them is due at `W` or later, by at most the time that was waited for (or the 10 ms).  It can be as late as that: `C113_double_fails`. -/
theorem C113_on_time_partial {K ok now s t} (hK : 0 < K) (ho : ∀ s e, ok s e → Own s e ∧ Calm K s e) (r : Reach K ok (start K now) s) (hi : s.stack = [])
    (hov : s.m.others = [] ∨ ∃ x, Waiting s.m x ∧ x ∉ s.m.others) (ht : Waiting s.m t) :
    ∃ o W, s.os = some o ∧ (∀ D, D % 8 = 0 → t.exp / K ≤ D → W ≤ D) ∧
      o.since + o.period * K ≤ max (W * K) (o.since + 10 * K) ∧
      (W * K < o.since + o.period * K + K ∨ o.period = 2147483647) ∧
      ∃ n, 1 ≤ n ∧ W * K ≤ o.since + n * (o.period * K) ∧
        o.since + n * (o.period * K) ≤ max (W * K + (W * K - o.since)) (o.since + 10 * K) := by
  obtain ⟨hk, _⟩ := C113_armed_partial hK (fun s e h => (ho s e h).1) r hi
  have h42 := C42_no_oversleep_partial (world_fine (fun s e h => (ho s e h).2) r) hov
  have osok := os_reach hK r
  unfold OsOk at osok
  cases hw : wakeup s.m with
  | none =>
    rw [show wakeup (world s).m = wakeup s.m from rfl, hw] at h42
    exact absurd ht (h42 t)
  | some W =>
    rw [show wakeup (world s).m = wakeup s.m from rfl, hw] at h42
    rw [hw] at hk
    cases hs : s.os with
    | none => rw [hs, hk] at osok; cases osok
    | some o =>
      rw [hs] at osok
      obtain ⟨W', hW', h1, h2, h3, h4, h5⟩ := osok
      rw [hk] at hW'
      cases hW'
      have e1 : (o.period + 1) * K = o.period * K + K := Nat.succ_mul _ _
      rw [e1] at h5
      have hp : 0 < o.period * K := Nat.mul_pos (by omega) hK
      refine ⟨o, W, rfl, fun D hD hE => h42 t ht D hD hE, by omega, by omega, ?_⟩
      generalize o.period * K = P at *
      generalize W * K = X at *
      generalize 10 * K = T at *
      by_cases hx : X ≤ o.since + P
      · exact ⟨1, Nat.le_refl 1, by omega, by omega⟩
      · refine ⟨(X - o.since) / P + 1, Nat.le_add_left 1 _, ?_, ?_⟩
        · have := Nat.lt_mul_div_succ (X - o.since) hp
          rw [Nat.mul_comm] at this
          omega
        · have := Nat.div_mul_le_self (X - o.since) P
          have e2 : ((X - o.since) / P + 1) * P = (X - o.since) / P * P + P := Nat.succ_mul _ _
          omega

/-- the runner's own code never gets stuck: unless foreign code is running, it has a next step -/
theorem C113_progress (K : Nat) {s : St} (h : ¬ User s) : ∃ s', Step K s .go s' := by
  cases hs : s.stack with
  | nil => exact absurd (fun f hf => by rw [hs] at hf; cases hf) h
  | cons f r =>
    cases f with
    | task =>
      refine absurd (fun f hf => ?_) h
      rw [hs] at hf
      exact (Option.some.inj hf).symm
    | set1 =>
      by_cases hc : s.count = 1
      · exact ⟨_, .first s r hs hc⟩
      · exact ⟨_, .skip s r hs hc⟩
    | set2 => exact ⟨_, .leave s r hs⟩
    | exec p =>
      cases p with
      | nil => exact ⟨_, .arm s r hs⟩
      | cons t p => exact ⟨_, .dispatch s t p r hs⟩

/-! ### Timers of other threads -/

/-- the thread itself sets no timer -/
def NotHere (_ : St) : Ev → Prop
  | .here _ => False
  | _ => True

theorem now_mono {K s e s'} (h : Step K s e s') : s.now ≤ s'.now := by
  cases h with
  | tick => exact Nat.le_add_right _ _
  | arm r => unfold arm; split <;> split <;> exact Nat.le_refl _
  | _ => exact Nat.le_refl _

theorem setTimer_last (K m t) : (setTimer K m t).1.last = m.last := by
  unfold setTimer
  dsimp only
  repeat' split
  all_goals rfl

theorem setTimer_due {K m t} (h : (setTimer K m t).2 = true) : t.exp ≤ m.last := by
  unfold setTimer at h
  dsimp only at h
  split at h
  · assumption
  · repeat' split at h
    all_goals cases h

/-- **C113 fails for timers set by another thread** – for all of them.  While the thread, back in its own code, sets no timer itself, and the window's timer that ran before (if any) is not yet due, no
`WM_TIMER` is ever requested: however much time passes and however many timers other threads set, no timer is dispatched but those whose expiry was already past at the last processing. -/
theorem C113_remote_fails {K s s'} (hi : s.stack = []) (r : Reach K NotHere s s') (hn : ∀ o, s.os = some o → s'.now < o.next K) :
    s'.os = s.os ∧ ∀ t a, (t, a) ∈ s'.fired → (t, a) ∈ s.fired ∨ t.exp ≤ s.m.last := by
  suffices h : s'.os = s.os ∧ s'.m.last = s.m.last ∧ (∀ f ∈ s'.stack, f = .task) ∧ ∀ t a, (t, a) ∈ s'.fired → (t, a) ∈ s.fired ∨ t.exp ≤ s.m.last from ⟨h.1, h.2.2.2⟩
  induction r with
  | refl => exact ⟨rfl, rfl, by simp [hi], fun _ _ h => .inl h⟩
  | step _ ok st ih =>
    obtain ⟨h1, h2, h3, h4⟩ := ih (fun o h => Nat.lt_of_le_of_lt (now_mono st) (hn o h))
    cases st with
    | tick => exact ⟨h1, h2, h3, h4⟩
    | cancel => exact ⟨h1, h2, h3, h4⟩
    | remote => exact ⟨h1, h2, h3, h4⟩
    | here => exact ok.elim
    | posted t p hu hp =>
      unfold put
      refine ⟨h1, by dsimp only; rw [setTimer_last]; exact h2, ?_, ?_⟩
      · intro f hf
        dsimp only at hf
        split at hf
        · rcases List.mem_cons.1 hf with hf | hf
          · exact hf
          · exact h3 f hf
        · exact h3 f hf
      · intro x a hx
        dsimp only at hx
        split at hx
        · rename_i hd
          rcases List.mem_append.1 hx with hx | hx
          · exact h4 x a hx
          · rw [List.mem_singleton] at hx
            cases hx
            have := setTimer_due hd
            exact .inr (by omega)
        · exact h4 x a hx
    | timer o hu ho hd =>
      have := hn o (by rw [← h1]; exact ho)
      have e : ∀ x : St, (enter K x).now = x.now := fun _ => rfl
      rw [e] at this
      dsimp only at this
      omega
    | first q hs => rw [hs] at h3; cases h3 _ List.mem_cons_self
    | skip q hs => rw [hs] at h3; cases h3 _ List.mem_cons_self
    | leave q hs => rw [hs] at h3; cases h3 _ List.mem_cons_self
    | dispatch t p q hs => rw [hs] at h3; cases h3 _ List.mem_cons_self
    | arm q hs => rw [hs] at h3; cases h3 _ List.mem_cons_self
    | ret q hs => exact ⟨h1, h2, fun f hf => h3 f (by rw [hs]; exact List.mem_cons_of_mem _ hf), h4⟩

/-- a timer set by another thread of a new runner: for every length of time `d` there is a history in which the manager has it, that time has passed, and it was not dispatched; by `C113_remote_fails` it never will be -/
theorem C113_remote_example (K now d : Nat) (t : Tm) (h : now < t.exp) :
    ∃ s, Reach K NotHere (start K now) s ∧ s.now = now + d ∧ t ∈ s.set ∧ s.stack = [] ∧ s.fired = [] ∧ s.os = none := by
  have hf : (setTimer K (new K now) t).2 = false := by
    cases hb : (setTimer K (new K now) t).2 with
    | false => rfl
    | true => have : t.exp ≤ now := setTimer_due hb; omega
  refine ⟨_, .step (.step (.step .refl (by trivial) (.remote _ t rfl)) (by trivial) (.posted _ t [] (fun f hf => by cases hf) rfl)) (by trivial) (.tick _ d), rfl, ?_, ?_, ?_, rfl⟩
  · simp [put]
  · show (if (setTimer K (new K now) t).2 then [Frame.task] else []) = []
    rw [hf]; rfl
  · show (if (setTimer K (new K now) t).2 then [(t, (new K now).last)] else []) = []
    rw [hf]; rfl

end Verif.ProxyTimer
