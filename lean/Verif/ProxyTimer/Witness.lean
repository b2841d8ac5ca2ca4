import Verif.ProxyTimer.Props
import Verif.TimingWheel.Witness

/-! Concrete histories of the proxy runner's timers: cases that meet the hypotheses of the theorems in `Props`, and histories in which the code breaks its promise. -/

namespace Verif.ProxyTimer
open Verif.TimingWheel (Tm Waiting wakeup Clean upd)

instance (s : St) : Decidable (User s) := by unfold User; infer_instance

/-- runs events; `none` if one is impossible (a cancellation is not run) -/
def next (K : Nat) (s : St) : Ev → Option St
  | .tick d => some { s with now := s.now + d }
  | .cancel => none
  | .remote t => if s.canc t.id = false then some { s with posted := s.posted ++ [t] } else none
  | .posted t => match s.posted with
    | [] => none
    | x :: r => if x = t ∧ User s then some (put K { s with posted := r } t) else none
  | .here t => if User s ∧ s.canc t.id = false then some (put K { s with count := s.count + 1, stack := .set1 :: s.stack } t) else none
  | .timer => match s.os with
    | none => none
    | some o => if User s ∧ o.next K ≤ s.now then some (enter K { s with os := some { o with n := o.n + 1 } }) else none
  | .go => match s.stack with
    | .set1 :: r => if s.count = 1 then some (enter K { s with stack := .set2 :: r }) else some { s with stack := .set2 :: r }
    | .set2 :: r => some { s with count := s.count - 1, stack := r }
    | .exec (t :: p) :: r => some { s with stack := .task :: .exec p :: r, fired := s.fired ++ [(t, s.m.last)] }
    | .exec [] :: r => some (arm K { s with stack := r })
    | _ => none
  | .ret => match s.stack with
    | .task :: r => some { s with stack := r }
    | _ => none

theorem next_step {K s e s'} (h : next K s e = some s') : Step K s e s' := by
  cases e with
  | tick d => cases h; exact .tick s d
  | cancel => cases h
  | remote t =>
    unfold next at h; dsimp only at h
    split at h
    · rename_i hc; cases h; exact .remote s t hc
    · cases h
  | posted t =>
    unfold next at h; dsimp only at h
    split at h
    · cases h
    · rename_i x r hp
      split at h
      · rename_i hc; cases h; obtain ⟨rfl, hu⟩ := hc; exact .posted s x r hu hp
      · cases h
  | here t =>
    unfold next at h; dsimp only at h
    split at h
    · rename_i hc; cases h; exact .here s t hc.1 hc.2
    · cases h
  | timer =>
    unfold next at h; dsimp only at h
    split at h
    · cases h
    · rename_i o ho
      split at h
      · rename_i hc; cases h; exact .timer s o hc.1 ho hc.2
      · cases h
  | go =>
    unfold next at h; dsimp only at h
    split at h
    · rename_i r hs
      split at h
      · rename_i hc; cases h; exact .first s r hs hc
      · rename_i hc; cases h; exact .skip s r hs hc
    · rename_i r hs; cases h; exact .leave s r hs
    · rename_i t p r hs; cases h; exact .dispatch s t p r hs
    · rename_i r hs; cases h; exact .arm s r hs
    · cases h
  | ret =>
    unfold next at h; dsimp only at h
    split at h
    · rename_i r hs; cases h; exact .ret s r hs
    · cases h

/-- runs a list of events, each of which must satisfy `okb` -/
def run (K : Nat) (okb : St → Ev → Bool) : St → List Ev → Option St
  | s, [] => some s
  | s, e :: es => if okb s e then (next K s e).bind fun s' => run K okb s' es else none

theorem run_reach {K} {ok : St → Ev → Prop} {okb : St → Ev → Bool} (hok : ∀ s e, okb s e = true → ok s e) {s0} :
    ∀ {es s s'}, Reach K ok s0 s → run K okb s es = some s' → Reach K ok s0 s'
  | [], s, s', r, h => by cases h; exact r
  | e :: es, s, s', r, h => by
    unfold run at h
    split at h
    · rename_i hb
      cases hn : next K s e with
      | none => rw [hn] at h; cases h
      | some x => rw [hn] at h; exact run_reach hok (.step r (hok _ _ hb) (next_step hn)) h
    · cases h

theorem witness {K now es} {ok : St → Ev → Prop} (okb : St → Ev → Bool) (hok : ∀ s e, okb s e = true → ok s e) (q : St → Bool)
    (h : (run K okb (start K now) es).any q = true) : ∃ s, Reach K ok (start K now) s ∧ q s = true := by
  cases hr : run K okb (start K now) es with
  | none => rw [hr] at h; cases h
  | some s => rw [hr] at h; exact ⟨s, run_reach hok .refl hr, h⟩

/-- no time passes while a `WM_TIMER` is due: the thread takes it at once -/
def Prompt (K : Nat) (s : St) : Ev → Prop
  | .tick d => ∀ o, s.os = some o → s.now + d ≤ o.next K
  | _ => True

def ownB : Ev → Bool
  | .posted _ => false
  | _ => true

def promptB (K : Nat) (s : St) : Ev → Bool
  | .tick d => match s.os with
    | none => true
    | some o => decide (s.now + d ≤ o.next K)
  | _ => true

def calmB (K : Nat) (s : St) : Ev → Bool
  | .here t => decide (s.m.last < t.exp → s.m.base < TimingWheel.ms K t.exp)
  | .posted t => decide (s.m.last < t.exp → s.m.base < TimingWheel.ms K t.exp)
  | .timer => decide (Clean s.m.base (TimingWheel.ms K s.now))
  | .go => decide (Clean s.m.base (TimingWheel.ms K s.now))
  | _ => true

theorem ownB_ok (s) : ∀ e, ownB e = true → Own s e
  | .posted _, h => by cases h
  | .tick _, _ | .cancel, _ | .remote _, _ | .here _, _ | .timer, _ | .go, _ | .ret, _ => trivial

theorem promptB_ok (K s) : ∀ e, promptB K s e = true → Prompt K s e
  | .tick d, h => by
    intro o ho
    unfold promptB at h; dsimp only at h
    rw [ho] at h
    exact of_decide_eq_true h
  | .posted _, _ | .cancel, _ | .remote _, _ | .here _, _ | .timer, _ | .go, _ | .ret, _ => trivial

theorem calmB_ok (K s) : ∀ e, calmB K s e = true → Calm K s e
  | .here t, h => of_decide_eq_true (p := s.m.last < t.exp → s.m.base < TimingWheel.ms K t.exp) h
  | .posted t, h => of_decide_eq_true (p := s.m.last < t.exp → s.m.base < TimingWheel.ms K t.exp) h
  | .timer, h => of_decide_eq_true (p := Clean s.m.base (TimingWheel.ms K s.now)) h
  | .go, h => fun _ => of_decide_eq_true (p := Clean s.m.base (TimingWheel.ms K s.now)) h
  | .tick _, _ | .cancel, _ | .remote _, _ | .ret, _ => trivial

/-- the thread's own timers, `Fine` calls, and a thread that takes every `WM_TIMER` at once -/
def Best (K : Nat) (s : St) (e : Ev) : Prop := (Own s e ∧ Calm K s e) ∧ Prompt K s e

def bestB (K : Nat) (s : St) (e : Ev) : Bool := (ownB e && calmB K s e) && promptB K s e

theorem bestB_ok (K s e) (h : bestB K s e = true) : Best K s e := by
  simp only [bestB, Bool.and_eq_true] at h
  exact ⟨⟨ownB_ok s e h.1.1, calmB_ok K s e h.1.2⟩, promptB_ok K s e h.2⟩

/-- A case for `C113_armed_partial` and `C113_on_time_partial`: timers of 0.5 s and 2 s (10 000 ticks per ms).  The first is dispatched by the `WM_TIMER` at 504 ms; its callback sets a timer of 96 ms more; then two
timers wait and the window's timer runs for the earlier one. -/
theorem C113_case : ∃ s, Reach 10000 (Best 10000) (start 10000 0) s ∧
    decide (s.stack = [] ∧ s.fired = [(⟨1, 5000000⟩, 5040000)] ∧ ⟨3, 6000000⟩ ∈ s.m.w1.slot 74 ∧ ⟨2, 20000000⟩ ∈ s.m.w2.slot 1 ∧ s.m.others = [] ∧
      s.known = some 600 ∧ s.os = some ⟨5040000, 96, 1⟩) = true :=
  witness (bestB 10000) (bestB_ok 10000) _
    (es := [.here ⟨1, 5000000⟩, .go, .go, .go, .here ⟨2, 20000000⟩, .go, .go, .go, .tick 5040000, .timer, .go, .here ⟨3, 6000000⟩, .go, .go, .go, .ret, .go])
    (by decide +kernel)

/-- **C113 fails: twice the time.**  A thread that takes every `WM_TIMER` at once sets a timer of one second, 0.3 µs after a full millisecond (10 000 ticks per ms).  The window's timer gets the remaining whole milliseconds, 999, and
comes due 0.9997 ms before the wake-up time; nothing is dispatched, the wake-up time is the same as before and the timer is not set again, so the next `WM_TIMER` comes after another 999 ms: at 1997.9999 ms the timer of one second
still waits. -/
theorem C113_double_fails : ∃ s, Reach 10000 (Best 10000) (start 10000 3) s ∧
    decide (s.stack = [] ∧ ⟨7, 10000003⟩ ∈ s.m.w1.slot 124 ∧ s.fired = [] ∧ s.now = 19980002 ∧ s.os = some ⟨3, 999, 2⟩ ∧ s.canc 7 = false) = true :=
  witness (bestB 10000) (bestB_ok 10000) _
    (es := [.here ⟨7, 10000003⟩, .go, .go, .go, .tick 9990000, .timer, .go, .tick 9989999])
    (by decide +kernel)

/-- the timer of `C113_double_fails` is dispatched after 1998 ms -/
theorem C113_double_end : ∃ s, Reach 10000 (Best 10000) (start 10000 3) s ∧
    decide (s.stack = [] ∧ s.fired = [(⟨7, 10000003⟩, 19980003)] ∧ s.os = none) = true :=
  witness (bestB 10000) (bestB_ok 10000) _
    (es := [.here ⟨7, 10000003⟩, .go, .go, .go, .tick 9990000, .timer, .go, .tick 9990000, .timer, .go, .ret, .go])
    (by decide +kernel)

/-- **C113 fails** for a timer of another thread that is earlier than the thread's own: own timer of 0.9 s; a timer of 0.1 s set by another thread, and given to the manager at once, still waits at 903 ms (1 tick = 1 ms). -/
theorem C113_remote_late_fails : ∃ s, Reach 1 (Prompt 1) (start 1 0) s ∧
    decide (s.stack = [] ∧ ⟨2, 100⟩ ∈ s.m.w1.slot 12 ∧ s.fired = [] ∧ s.now = 903 ∧ s.canc 2 = false) = true :=
  witness (promptB 1) (promptB_ok 1) _
    (es := [.here ⟨1, 900⟩, .go, .go, .go, .remote ⟨2, 100⟩, .posted ⟨2, 100⟩, .tick 903])
    (by decide +kernel)

/-- **C113 fails inside a callback.**  The thread sets a timer whose time is already past; its callback runs at once, inside `SetTimerInternal`, and opens a dialog.  A timer of 0.1 s set in the dialog does not start the window's
timer, because `uSetTimerCount` is 2; the dialog waits for it in vain for as long as it is open (here 10 s). -/
theorem C113_dialog_fails : ∃ s, Reach 1 (Best 1) (start 1 8) s ∧
    decide (User s ∧ s.stack = [.task, .set1] ∧ ⟨2, 108⟩ ∈ s.m.w1.slot 13 ∧ s.now = 10008 ∧ s.os = none ∧ s.known = none) = true :=
  witness (bestB 1) (bestB_ok 1) _
    (es := [.here ⟨1, 5⟩, .here ⟨2, 108⟩, .go, .go, .tick 10000])
    (by decide +kernel)

#print axioms C113_exactly_once
#print axioms C113_armed_partial
#print axioms C113_on_time_partial
#print axioms C113_remote_fails
#print axioms C113_remote_example
#print axioms C113_double_fails
#print axioms C113_dialog_fails

end Verif.ProxyTimer
