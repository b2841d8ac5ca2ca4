import Verif.TimingWheel.Props

/-! Concrete histories: cases that meet the hypotheses of the theorems in `Props`, and the histories in which the code breaks its promise. -/

namespace Verif.TimingWheel

/-- runs a list of events; `none` if a `fire` does not name the head of the pending list -/
def run (K : Nat) : World → List Ev → Option World
  | w, [] => some w
  | w, .set t :: es => run K (w.set' K t) es
  | w, .cancel i :: es => run K { w with canc := upd w.canc i true } es
  | w, .process c :: es => run K (w.process' K c) es
  | w, .fire t :: es => match w.pend with
    | [] => none
    | x :: r => if x = t then run K { w with pend := r, fired := w.fired ++ [(t, w.m.last)] } es else none

def okAll (K : Nat) (ok : World → Ev → Bool) : World → List Ev → Bool
  | _, [] => true
  | w, .set t :: es => ok w (.set t) && okAll K ok (w.set' K t) es
  | w, .cancel i :: es => ok w (.cancel i) && okAll K ok { w with canc := upd w.canc i true } es
  | w, .process c :: es => ok w (.process c) && okAll K ok (w.process' K c) es
  | w, .fire t :: es => ok w (.fire t) && match w.pend with
    | [] => true
    | _ :: r => okAll K ok { w with pend := r, fired := w.fired ++ [(t, w.m.last)] } es

theorem run_reach {K} {ok : World → Ev → Prop} {okb : World → Ev → Bool} (hok : ∀ w e, okb w e = true → ok w e) {w0} :
    ∀ {w es w'}, Reach K ok w0 w → run K w es = some w' → okAll K okb w es = true → Reach K ok w0 w'
  | w, [], w', r, h, _ => by cases h; exact r
  | w, .set t :: es, w', r, h, o => by
    simp only [okAll, Bool.and_eq_true] at o
    exact run_reach hok (.step r (hok _ _ o.1) (.set w t)) h o.2
  | w, .cancel i :: es, w', r, h, o => by
    simp only [okAll, Bool.and_eq_true] at o
    exact run_reach hok (.step r (hok _ _ o.1) (.cancel w i)) h o.2
  | w, .process c :: es, w', r, h, o => by
    simp only [okAll, Bool.and_eq_true] at o
    exact run_reach hok (.step r (hok _ _ o.1) (.process w c)) h o.2
  | w, .fire t :: es, w', r, h, o => by
    simp only [okAll, Bool.and_eq_true] at o
    unfold run at h
    cases hp : w.pend with
    | nil => rw [hp] at h; cases h
    | cons x l =>
      rw [hp] at h o
      dsimp only at h o
      by_cases hx : x = t
      · rw [if_pos hx] at h
        subst hx
        exact run_reach hok (.step r (hok _ _ o.1) (.fire w x [] l hp)) h o.2
      · rw [if_neg hx] at h; cases h

/-- a run whose end satisfies the computable check `q` -/
theorem witness {K now es} (ok : World → Ev → Prop) (okb : World → Ev → Bool) (hok : ∀ w e, okb w e = true → ok w e) (q : World → Bool)
    (h : (run K (start K now) es).any q = true) (ho : okAll K okb (start K now) es = true) :
    ∃ w, Reach K ok (start K now) w ∧ q w = true := by
  cases hr : run K (start K now) es with
  | none => rw [hr] at h; cases h
  | some w => rw [hr] at h; exact ⟨w, run_reach hok .refl hr ho, h⟩

instance (b u : Nat) : Decidable (Clean b u) := by unfold Clean; infer_instance

def fineB (K : Nat) (w : World) : Ev → Bool
  | .set t => decide (w.m.last < t.exp → w.m.base < ms K t.exp)
  | .process cur => decide (Clean w.m.base (ms K cur))
  | _ => true

theorem fineB_ok (K w) : ∀ e, fineB K w e = true → Fine K w e
  | .set t, h => of_decide_eq_true (p := w.m.last < t.exp → w.m.base < ms K t.exp) h
  | .process c, h => of_decide_eq_true (p := Clean w.m.base (ms K c)) h
  | .cancel _, _ => trivial
  | .fire _, _ => trivial

def anyEv : World → Ev → Prop := fun _ _ => True

theorem okAll_true (K) : ∀ w es, okAll K (fun _ _ => true) w es = true
  | _, [] => rfl
  | w, .set t :: es => by simp [okAll, okAll_true K _ es]
  | w, .cancel i :: es => by simp [okAll, okAll_true K _ es]
  | w, .process i :: es => by simp [okAll, okAll_true K _ es]
  | w, .fire i :: es => by
    unfold okAll
    cases w.pend with
    | nil => rfl
    | cons x l => simp [okAll_true K _ es]

theorem witness' {K now es} (q : World → Bool) (h : (run K (start K now) es).any q = true) :
    ∃ w, Reach K anyEv (start K now) w ∧ q w = true :=
  witness anyEv (fun _ _ => true) (fun _ _ _ => trivial) q h (okAll_true _ _ _)

/-! ### Cases that meet the hypotheses -/

/-- Timers of 0.5 s, 2 s, 70 s and 90 minutes (1 tick = 1 ms), processed every now and then: the first three are dispatched in order, each after its expiry, the last
one waits, and the wake-up time is before it. -/
def calm : List Ev :=
  [.set ⟨1, 500⟩, .set ⟨2, 2000⟩, .set ⟨3, 70000⟩, .set ⟨4, 5400000⟩, .process 520, .fire ⟨1, 500⟩, .process 1100, .process 2010, .fire ⟨2, 2000⟩,
   .process 60000, .process 66000, .process 70010, .fire ⟨3, 70000⟩]

theorem calm_case : ∃ w, Reach 1 (Fine 1) (start 1 0) w ∧
    decide (w.fired = [(⟨1, 500⟩, 520), (⟨2, 2000⟩, 2010), (⟨3, 70000⟩, 70010)] ∧ w.m.others = [⟨4, 5400000⟩] ∧ w.pend = []) = true :=
  witness (Fine 1) (fineB 1) (fineB_ok 1) _ (es := calm) (by decide +kernel) (by decide +kernel)

/-- `C42_no_oversleep_partial` with timers in all four places: the wake-up time is the tick of the nearest one -/
theorem wake_case : ∃ w, Reach 1 (Fine 1) (start 1 0) w ∧
    decide (⟨1, 500⟩ ∈ w.m.w1.slot 62 ∧ ⟨2, 2000⟩ ∈ w.m.w2.slot 1 ∧ ⟨3, 70000⟩ ∈ w.m.w3.slot 1 ∧ w.m.others = [⟨4, 5400000⟩] ∧ wakeup w.m = some 504) = true :=
  witness (Fine 1) (fineB 1) (fineB_ok 1) _ (es := calm.take 4) (by decide +kernel) (by decide +kernel)

/-! ### Refutations -/

/-- **C40 fails** for timers set more than 70 minutes ahead.  A timer of 140 minutes (8388616 ms) is dispatched at 4194312 ms, 70 minutes early: the overflow list is moved to
slot 0 of wheel 3, and the cascade that follows at once empties that same slot and dispatches what does not fit (`assert(false)` in a debug build). -/
theorem C40_fails : ∃ w, Reach 1 anyEv (start 1 0) w ∧
    decide ((⟨7, 8388616⟩, 4194312) ∈ w.fired ∧ w.canc 7 = false) = true :=
  witness' _ (es := [.set ⟨7, 8388616⟩, .process 4194000, .process 4194312, .fire ⟨7, 8388616⟩]) (by decide +kernel)

/-- **C40 fails** below a millisecond (10 ticks per ms): a timer due at tick 20485 is dispatched at tick 20481. -/
theorem C40_tick_fails : ∃ w, Reach 10 anyEv (start 10 0) w ∧
    decide ((⟨7, 20485⟩, 20481) ∈ w.fired ∧ w.canc 7 = false ∧ w.far = []) = true :=
  witness' _ (es := [.set ⟨7, 20485⟩, .process 20481, .fire ⟨7, 20485⟩]) (by decide +kernel)

/-- **C41 fails**: a timer of 70 s is still waiting at 130 s although the timers were processed at 65 s, 67 s, 80 s, 100 s and 130 s.  The call at 67 s passes from the last
slot of wheel 2 over the first slot of its next round, and does not fetch slot 1 of wheel 3. -/
theorem C41_cascade_fails : ∃ w, Reach 1 anyEv (start 1 0) w ∧
    decide (⟨7, 70000⟩ ∈ w.m.w3.slot 1 ∧ w.m.last = 130000) = true :=
  witness' _ (es := [.set ⟨7, 70000⟩, .process 65000, .process 67000, .process 80000, .process 100000, .process 130000]) (by decide +kernel)

/-- **C41 fails**: 10 ticks per ms; a timer due at tick 85 (8.5 ms) set at tick 80, when the base is 8 ms, goes to the slot already passed, and still waits at 1000 ms. -/
theorem C41_base_fails : ∃ w, Reach 10 anyEv (start 10 80) w ∧
    decide (⟨7, 85⟩ ∈ w.m.w1.slot 0 ∧ w.m.last = 10000) = true :=
  witness' _ (es := [.set ⟨7, 85⟩, .process 200, .process 5000, .process 10000]) (by decide +kernel)

/-- **C42 fails** when only the overflow list is occupied: a timer due at 4194404 ms; after a processing at 4000000 ms the wake-up time is 8194304 ms, more than an hour
after the timer is due. -/
theorem C42_fails : ∃ w, Reach 1 (Fine 1) (start 1 0) w ∧
    decide (⟨7, 4194404⟩ ∈ w.m.others ∧ wakeup w.m = some 8194304) = true :=
  witness (Fine 1) (fineB 1) (fineB_ok 1) _ (es := [.set ⟨7, 4194404⟩, .process 4000000]) (by decide +kernel) (by decide +kernel)

/-- the wake-up time may lie in the past: base in slot 63 of wheel 2, a timer in its slot 1; the requested wake-up is 1024 ms while the time is 65000 ms -/
theorem C42_past : ∃ w, Reach 1 (Fine 1) (start 1 0) w ∧
    decide (w.m.last = 65000 ∧ wakeup w.m = some 1024) = true :=
  witness (Fine 1) (fineB 1) (fineB_ok 1) _ (es := [.process 65000, .set ⟨7, 67000⟩]) (by decide +kernel) (by decide +kernel)

#print axioms C43_exactly_once
#print axioms C40_never_early_partial
#print axioms C41_on_time_partial
#print axioms C42_no_oversleep_partial
#print axioms far_meaning
#print axioms C40_fails
#print axioms C40_tick_fails
#print axioms C41_cascade_fails
#print axioms C41_base_fails
#print axioms C42_fails
#print axioms C42_past
#print axioms calm_case
#print axioms wake_case

end Verif.TimingWheel
