import Verif.WaitLoop.Lemmas
/-!
# C103 – a wait on a thread task runner gets a true result, in time
-/
namespace Verif.WaitLoop
open Verif.WaitMgr

/-- The contract of `MsgWaitForMultipleObjectsEx` when called at the time `now` for the handles of `s` with a limit of `req` ms: which values it can return, and what they mean.
`sig h`: it found handle `h` signalled; `ab h`: it found the mutex `h` abandoned. -/
structure Contract (sig ab : Nat → Prop) (s : St) (req : Nat) (now : Int) (r : Nat) (after : Int) : Prop where
  range : r ≤ s.cnt ∨ (0x80 ≤ r ∧ r < 0x80 + s.cnt) ∨ r = 0xC0 ∨ r = 0x102 ∨ r = 0xFFFFFFFF
  object : r < s.cnt → sig (s.h r)
  abandoned : 0x80 ≤ r → r < 0x80 + s.cnt → ab (s.h (r - 0x80))
  limit : r = 0x102 → req < 2 ^ 32 - 1 ∧ now + req * 10000 ≤ after

theorem kTimeout_eq : kTimeout = 0x102 := rfl
theorem kIo_eq : kIo = 0xC0 := rfl
theorem kAbandoned_eq : kAbandoned = 0x80 := rfl
theorem kFailed_eq : kFailed = 0xFFFFFFFF := rfl
theorem infinite_eq : infinite = 2 ^ 32 - 1 := by unfold infinite; rfl

/-- **C103 (partial)**: every result that a wait of the loop hands out is true: `WAIT_OBJECT_0` and `WAIT_ABANDONED` say that the wait's own handle was found signalled or abandoned,
`WAIT_TIMEOUT` that the wait's time is over (less than a millisecond is left), and any other result is what the system says of the wait's own handle; whatever the completion handlers do.
Missing: histories in which a handle gets a second pending wait (`C54_replace_fails`). -/
theorem C103_true_partial (hd : Nat → Nat) (react : React) (hO : Obeys hd react) (probe : Nat → Nat → Nat) (os : Os) (timer now : Int) (s : St) (h : Reached hd s)
    (sig ab : Nat → Prop) (r : Nat) (after : Int) (ho : os (minimum s).1 (asked timer now s) = (r, after))
    (hc : Contract sig ab (minimum s).1 (asked timer now s) now r after) (s' : St) (o : List Out) (hw : wait hd react probe os timer now s = some (s', o)) :
    Reached hd s' ∧ ∀ x ∈ o, hd x.w ≠ 0 ∧
      ((x.code = 0 ∧ sig (hd x.w)) ∨ (x.code = 0x80 ∧ ab (hd x.w)) ∨ (x.code = 0x102 ∧ r = 0x102 ∧ x.due < after + 10000) ∨
       (r = 0xFFFFFFFF ∧ x.code ≠ 0x102 ∧ ∃ i, probe i (hd x.w) = x.code)) := by
  have h1 := reached_minimum h
  have h63 := cnt63 h1
  unfold wait at hw
  dsimp only at hw
  rw [ho] at hw; dsimp only at hw
  split at hw
  · cases hw; exact ⟨h1, fun _ hx => by cases hx⟩
  · unfold tasks at hw
    have hA := kAbandoned_eq
    have hT := kTimeout_eq
    have hI := kIo_eq
    split at hw
    · rename_i hr
      split at hw
      · obtain ⟨a1, a2⟩ := processR_ok hO h1 hw
        refine ⟨a1, fun x hx => ?_⟩
        obtain ⟨b1, b2⟩ := at_hd h1 (a2 x hx)
        refine ⟨by rw [b1]; exact b2, .inl ⟨(a2 x hx).2.2.2.2.1, ?_⟩⟩
        rw [b1]; exact hc.object (a2 x hx).1
      · cases hw; exact ⟨h1, fun _ hx => by cases hx⟩
    · rename_i hr
      split at hw
      · rename_i hr2
        split at hw
        · obtain ⟨a1, a2⟩ := processR_ok hO h1 hw
          refine ⟨a1, fun x hx => ?_⟩
          obtain ⟨b1, b2⟩ := at_hd h1 (a2 x hx)
          refine ⟨by rw [b1]; exact b2, .inr (.inl ⟨(a2 x hx).2.2.2.2.1, ?_⟩)⟩
          have := (a2 x hx).1
          rw [b1]; exact hc.abandoned hr2.1 (by omega)
        · cases hw; exact ⟨h1, fun _ hx => by cases hx⟩
      · rename_i hr2
        split at hw
        · cases hw; exact ⟨h1, fun _ hx => by cases hx⟩
        · rename_i hr3
          split at hw
          · rename_i hr4
            obtain ⟨a1, a2⟩ := timeoutR_ok hO after _ h1 hw
            refine ⟨a1, fun x hx => ?_⟩
            obtain ⟨b1, b2, b3⟩ := a2 x hx
            exact ⟨b1, .inr (.inr (.inl ⟨b2, hr4, b3⟩))⟩
          · rename_i hr4
            obtain ⟨a1, a2⟩ := failedR_ok hO probe _ _ h1 hw
            refine ⟨a1, fun x hx => ?_⟩
            obtain ⟨b1, b2, b3⟩ := a2 x hx
            refine ⟨b1, .inr (.inr (.inr ⟨?_, b2, b3⟩))⟩
            rcases hc.range with e | e | e | e | e <;> first | exact e | omega

/-- **C103 (partial)**: when the system reports a message, an APC, or a time-out that belongs to a timer, no wait is resolved; only registrations of waits that are gone or cancelled are dropped -/
theorem C103_idle_partial (hd : Nat → Nat) (react : React) (probe : Nat → Nat → Nat) (os : Os) (timer now : Int) (s : St) (h : Reached hd s) (r : Nat) (after : Int)
    (ho : os (minimum s).1 (asked timer now s) = (r, after))
    (hr : r = (minimum s).1.cnt ∨ r = 0xC0 ∨ (r = 0x102 ∧ ∀ x v, Paired s x v → Live s v → timer < (s.ws v).timeout) ∧ timer < 2 ^ 64 - 1) :
    ∃ s', wait hd react probe os timer now s = some (s', []) ∧ ∀ x v, Paired s' x v ↔ Paired s x v ∧ Live s v := by
  have h63 := cnt63 (reached_minimum h)
  refine ⟨(minimum s).1, ?_, (C54_minimum_partial hd s h).1⟩
  unfold wait
  dsimp only
  rw [ho]; dsimp only
  by_cases ht : r = kTimeout ∧ timer < (minimum s).2.getD tickMax
  · rw [if_pos ht]
  · rw [if_neg ht]
    unfold tasks
    have hA := kAbandoned_eq
    have hT := kTimeout_eq
    have hI := kIo_eq
    rcases hr with e | e | ⟨⟨e, h2⟩, h3⟩
    · rw [if_pos (by omega), if_neg (by omega)]
    · rw [if_neg (by omega), if_neg (by omega), if_pos (by omega)]
    · exfalso
      apply ht
      refine ⟨e, ?_⟩
      cases hm : (minimum s).2 with
      | none => simp only [Option.getD_none]; unfold tickMax; exact h3
      | some t =>
        obtain ⟨x, v, a, b, c⟩ := (C54_minimum_partial hd s h).2.1 t hm
        simp only [Option.getD_some]
        rw [← c]; exact h2 x v a b

/-- registered, existing and not cancelled waits are pending -/
theorem live_started {hd : Nat → Nat} {s : St} (h : Reached hd s) {x v : Nat} (hp : Paired s x v) (hl : Live s v) : (s.ws v).status = .started := by
  have := (h.good.pt x v hp hl.1).1
  cases e : (s.ws v).status with
  | started => rfl
  | canceled => exact absurd e hl.2
  | completed => exact absurd e this

/-- in the tidied-up manager, in terms of the state before -/
theorem at_minimum {hd : Nat → Nat} {s : St} (h : Reached hd s) {i c : Nat} {x : Out} (ha : At (minimum s).1 i c x) :
    Paired s ((minimum s).1.h i) x.w ∧ Live s x.w ∧ x.code = c ∧ x.due = (s.ws x.w).timeout := by
  obtain ⟨a1, a2, a3, a4, a5, a6⟩ := ha
  obtain ⟨b1, b2⟩ := ((C54_minimum_partial hd s h).1 _ _).1 ⟨i, a1, rfl, a2⟩
  exact ⟨b1, b2, a5, by rw [a6, (minimum_same s _).2.2]⟩

theorem minimum_at {hd : Nat → Nat} {s : St} (h : Reached hd s) {x : Nat} {c : Nat} {y : Out} (h1 : Paired s x y.w) (h2 : Live s y.w) (h3 : y.code = c) (h4 : y.due = (s.ws y.w).timeout) :
    ∃ i < (minimum s).1.cnt, (minimum s).1.h i = x ∧ At (minimum s).1 i c y := by
  obtain ⟨i, hi, b1, b2⟩ := ((C54_minimum_partial hd s h).1 x y.w).2 ⟨h1, h2⟩
  obtain ⟨m1, m2, m3⟩ := minimum_same s y.w
  exact ⟨i, hi, b1, hi, b2, by rw [m1]; exact h2.1, by rw [m2]; exact live_started h h1 h2, h3, by rw [m3]; exact h4⟩

/-- **C103 (partial)**: when handle `x` (the one with the index the system names) is reported signalled (`c = 0`) or abandoned (`c = 0x80`), exactly the pending wait for it gets exactly
that result, and only its registration ends.  The handlers leave the manager alone. -/
theorem C103_object_partial (hd : Nat → Nat) (probe : Nat → Nat → Nat) (os : Os) (timer now : Int) (s : St) (h : Reached hd s) (r c i : Nat) (after : Int)
    (ho : os (minimum s).1 (asked timer now s) = (r, after)) (hr : r = c + i) (hcc : c = 0 ∨ c = 0x80) (hi : i < (minimum s).1.cnt) :
    ∃ s' o, wait hd quiet probe os timer now s = some (s', o) ∧
      (∀ x v, Paired s' x v ↔ Paired s x v ∧ Live s v ∧ x ≠ (minimum s).1.h i) ∧
      ∀ y, y ∈ o ↔ Paired s ((minimum s).1.h i) y.w ∧ Live s y.w ∧ y.code = c ∧ y.due = (s.ws y.w).timeout := by
  have h1 := reached_minimum h
  have h63 := cnt63 h1
  obtain ⟨o, p1, p2⟩ := processR_quiet (hd := hd) hi c
  refine ⟨process (minimum s).1 i, o, ?_, fun x v => ?_, fun y => ?_⟩
  · unfold wait
    dsimp only
    rw [ho]; dsimp only
    rw [if_neg (by have hT := kTimeout_eq; rintro ⟨e, _⟩; omega)]
    unfold tasks
    have hA := kAbandoned_eq
    have hT := kTimeout_eq
    have hI := kIo_eq
    rcases hcc with e | e
    · rw [if_pos (by omega), if_pos (by omega)]
      have : r = i := by omega
      rw [this, ← e]; exact p1
    · rw [if_neg (by omega), if_pos (by omega), if_pos (by omega)]
      have : r - kAbandoned = i := by omega
      rw [this, hA, ← e]; exact p1
  · rw [(process_good h1.good hi).2.1, (C54_minimum_partial hd s h).1, and_assoc]
  · rw [p2]
    constructor
    · exact at_minimum h
    · rintro ⟨a1, a2, a3, a4⟩
      obtain ⟨j, j1, j2, j3⟩ := minimum_at h a1 a2 a3 a4
      have := h1.good.inv.core.inj j j1 i hi j2
      subst this; exact j3

/-- **C103 (partial)**: at a time-out that does not belong to a timer, exactly the waits with less than a millisecond left are resolved, with `WAIT_TIMEOUT`; all others stay.
The handlers leave the manager alone. -/
theorem C103_timeout_partial (hd : Nat → Nat) (probe : Nat → Nat → Nat) (os : Os) (timer now : Int) (s : St) (h : Reached hd s) (after : Int)
    (ho : os (minimum s).1 (asked timer now s) = (0x102, after)) (ht : ∃ x v, Paired s x v ∧ Live s v ∧ (s.ws v).timeout ≤ timer) :
    ∃ s' o, wait hd quiet probe os timer now s = some (s', o) ∧
      (∀ x v, Paired s' x v ↔ Paired s x v ∧ Live s v ∧ after + 10000 ≤ (s.ws v).timeout) ∧
      ∀ y, y ∈ o ↔ (∃ x, Paired s x y.w) ∧ Live s y.w ∧ y.code = 0x102 ∧ y.due = (s.ws y.w).timeout ∧ y.due < after + 10000 := by
  have h1 := reached_minimum h
  have h63 := cnt63 h1
  obtain ⟨x0, v0, t1, t2, t3⟩ := ht
  obtain ⟨t, m1, m2⟩ := (C54_minimum_partial hd s h).2.2 x0 v0 t1 t2
  obtain ⟨o, p1, p2⟩ := timeoutR_quiet (hd := hd) after (minimum s).1.cnt h1 (Nat.le_refl _)
  refine ⟨timeouts after (minimum s).1, o, ?_, fun x v => ?_, fun y => ?_⟩
  · unfold wait
    dsimp only
    rw [ho]; dsimp only
    rw [if_neg (by rw [m1]; simp only [Option.getD_some]; rintro ⟨_, e⟩; omega)]
    unfold tasks
    have hA := kAbandoned_eq
    have hT := kTimeout_eq
    have hI := kIo_eq
    rw [if_neg (by omega), if_neg (by omega), if_neg (by omega), if_pos (by omega)]
    exact p1
  · rw [(C54_timeouts_partial hd _ h1 after).1, (C54_minimum_partial hd s h).1, and_assoc]
    refine and_congr_right fun _ => and_congr_right fun hl => ?_
    unfold Waiting
    rw [ms_pos, (minimum_same s v).1, (minimum_same s v).2.2]
    exact ⟨fun ⟨_, b⟩ => by omega, fun b => ⟨hl.1, by omega⟩⟩
  · rw [p2]
    constructor
    · rintro ⟨j, hj, ha, hb⟩
      obtain ⟨a1, a2, a3, a4⟩ := at_minimum h ha
      exact ⟨⟨_, a1⟩, a2, a3, a4, hb⟩
    · rintro ⟨⟨x, a1⟩, a2, a3, a4, a5⟩
      obtain ⟨j, j1, j2, j3⟩ := minimum_at h a1 a2 a3 a4
      exact ⟨j, j1, j3, a5⟩

/-- **C103 (partial)**: when the wait failed as a whole, each handle is asked for on its own: exactly the waits whose handle is then not merely unsignalled are resolved, with what the
system says of it (so a handle that cannot be waited for is gone and does not block the others), and all others stay.  The handlers leave the manager alone. -/
theorem C103_failed_partial (hd : Nat → Nat) (probe : Nat → Nat) (os : Os) (timer now : Int) (s : St) (h : Reached hd s) (after : Int)
    (ho : os (minimum s).1 (asked timer now s) = (0xFFFFFFFF, after)) :
    ∃ s' o, wait hd (quiet) (fun _ => probe) os timer now s = some (s', o) ∧
      (∀ x v, Paired s' x v ↔ Paired s x v ∧ Live s v ∧ probe x = 0x102) ∧
      ∀ y, y ∈ o ↔ (∃ x, Paired s x y.w ∧ y.code = probe x ∧ probe x ≠ 0x102) ∧ Live s y.w ∧ y.due = (s.ws y.w).timeout := by
  have h1 := reached_minimum h
  have h63 := cnt63 h1
  obtain ⟨s', o, p1, p2, p3, p4⟩ := failedR_quiet (hd := hd) (fun _ => probe) (minimum s).1.cnt (minimum s).1.cnt h1 (Nat.le_refl _) (Nat.le_refl _)
  refine ⟨s', o, ?_, fun x v => ?_, fun y => ?_⟩
  · unfold wait
    dsimp only
    rw [ho]; dsimp only
    rw [if_neg (by have hT := kTimeout_eq; rintro ⟨e, _⟩; omega)]
    unfold tasks
    have hA := kAbandoned_eq
    have hT := kTimeout_eq
    have hI := kIo_eq
    rw [if_neg (by omega), if_neg (by omega), if_neg (by omega), if_neg (by omega)]
    simp only [failedR]
    rw [if_neg (by simp)]
    exact p1
  · rw [p3, ← and_assoc, ← (C54_minimum_partial hd s h).1]
    constructor
    · rintro ⟨j, a1, a2, a3, a4⟩; exact ⟨⟨j, a1, a2, a3⟩, a4 a1⟩
    · rintro ⟨⟨j, a1, a2, a3⟩, a4⟩; exact ⟨j, a1, a2, a3, fun _ => a4⟩
  · rw [p4]
    constructor
    · rintro ⟨j, hj, ha, hb⟩
      obtain ⟨a1, a2, a3, a4⟩ := at_minimum h ha
      exact ⟨⟨_, a1, a3, by rw [← a3]; exact hb⟩, a2, a4⟩
    · rintro ⟨⟨x, a1, a2, a3⟩, a4, a5⟩
      obtain ⟨j, j1, j2, j3⟩ := minimum_at h a1 a4 a2 a5
      exact ⟨j, j1, by rw [j2]; exact j3, by rw [a2]; exact a3⟩

theorem ms_of_pos {d : Int} (h : 0 ≤ d) : ms d = d / 10000 := by unfold ms; exact Int.tdiv_eq_ediv_of_nonneg h

/-- the sleep lasts until less than a millisecond before the wake-up time, or without limit -/
theorem span_ge (now wake : Int) : span now wake = infinite ∨ (1 ≤ span now wake ∧ wake < now + span now wake * 10000 + 10000) := by
  unfold span
  split
  · exact .inl rfl
  · split
    · right; omega
    · split
      · exact .inl rfl
      · rename_i h1 h2 h3
        right
        rw [ms_of_pos (by omega)]
        generalize hd : wake - now = d at *
        omega

/-- and not beyond it, but at least a millisecond -/
theorem span_le (now wake : Int) (h : span now wake < infinite) : (span now wake : Int) * 10000 ≤ max (wake - now) 10000 := by
  revert h
  unfold span
  split
  · intro h; omega
  · split
    · intro _; omega
    · split
      · intro h; omega
      · rename_i h1 h2 h3
        intro _
        rw [ms_of_pos (by omega)]
        generalize hd : wake - now = d at *
        omega

/-- **C103 (partial)**: when the time that the loop asked for is over and no timer was earlier, then the waits that were due first are resolved; so the loop never spins -/
theorem C103_due_partial (hd : Nat → Nat) (probe : Nat → Nat → Nat) (os : Os) (timer now : Int) (s : St) (h : Reached hd s) (after : Int) (sig ab : Nat → Prop)
    (ho : os (minimum s).1 (asked timer now s) = (0x102, after)) (hc : Contract sig ab (minimum s).1 (asked timer now s) now 0x102 after)
    (x v : Nat) (hp : Paired s x v) (hl : Live s v) (hf : ∀ x' v', Paired s x' v' → Live s v' → (s.ws v).timeout ≤ (s.ws v').timeout) (ht : (s.ws v).timeout ≤ timer) :
    ∃ s' o, wait hd quiet probe os timer now s = some (s', o) ∧ ⟨v, 0x102, (s.ws v).timeout⟩ ∈ o := by
  obtain ⟨s', o, a1, a2, a3⟩ := C103_timeout_partial hd probe os timer now s h after ho ⟨x, v, hp, hl, ht⟩
  refine ⟨s', o, a1, (a3 _).2 ⟨⟨x, hp⟩, hl, rfl, rfl, ?_⟩⟩
  obtain ⟨l1, l2⟩ := hc.limit rfl
  have hm : (minimum s).2 = some (s.ws v).timeout := by
    obtain ⟨t, m1, m2⟩ := (C54_minimum_partial hd s h).2.2 x v hp hl
    obtain ⟨x', v', b1, b2, b3⟩ := (C54_minimum_partial hd s h).2.1 t m1
    have := hf x' v' b1 b2
    rw [m1]; congr 1; omega
  unfold asked at l1 l2
  rw [hm] at l1 l2
  simp only [Option.getD_some] at l1 l2
  have hmin : min (s.ws v).timeout timer = (s.ws v).timeout := by omega
  rw [hmin] at l1 l2
  have hi := infinite_eq
  rcases span_ge now (s.ws v).timeout with e | ⟨_, e⟩
  · omega
  · dsimp only; omega

/-- **C103 (partial)**: the loop never asks for a sleep beyond the time limit of a pending wait, except that it asks for at least a millisecond; and while a wait has a limit less than
49 days away it does not sleep without limit -/
theorem C103_sleep_partial (hd : Nat → Nat) (timer now : Int) (s : St) (h : Reached hd s) (x v : Nat) (hp : Paired s x v) (hl : Live s v)
    (hn : (s.ws v).timeout < now + (2 ^ 32 - 1) * 10000) (hm : (s.ws v).timeout < 2 ^ 64 - 1) :
    asked timer now s < 2 ^ 32 - 1 ∧ (asked timer now s : Int) * 10000 ≤ max ((s.ws v).timeout - now) 10000 := by
  obtain ⟨t, m1, m2⟩ := (C54_minimum_partial hd s h).2.2 x v hp hl
  have e : asked timer now s = span now (min t timer) := by unfold asked; rw [m1]; rfl
  rw [e]
  have hlt : span now (min t timer) < infinite := by
    have hi := infinite_eq
    have ht : tickMax = 2 ^ 64 - 1 := by unfold tickMax; rfl
    unfold span
    rw [if_neg (by omega)]
    split
    · omega
    · rw [if_neg]
      · rw [ms_of_pos (by omega)]
        generalize hd : min t timer - now = d at *
        omega
      · rw [ms_of_pos (by omega)]
        generalize hd : min t timer - now = d at *
        omega
  have := span_le now (min t timer) hlt
  have hi := infinite_eq
  omega

/-! ## Counterexamples and cases -/

/-- one registered wait (10, for handle 1) whose time has long been over -/
def late : St := (run hd10 {} [.set 10 false]).getD {}

theorem late_minimum : minimum late = (late, some 0) := rfl

theorem late_reached : Reached hd10 late :=
  ⟨[.set 10 false], ⟨fun v ⟨i, hi, _⟩ => absurd hi (Nat.not_lt_zero _), fun _ _ => trivial⟩, rfl⟩

/-- **C103 fails**: time-outs are only looked at when the wait itself runs into its limit.  If a message (each posted task sends one) arrives in every millisecond, a wait is never resolved
although its time is over from the start: after any number of rounds at any later times it is still registered and pending. -/
theorem C103_starved_fails (react : React) (probe : Nat → Nat → Nat) (l : List (Int × Int × Int)) :
    waits hd10 react probe late (l.map fun (a, timer, now) => ((fun s _ => (s.cnt, a)), timer, now)) = some (late, []) ∧
    Paired late 1 10 ∧ Live late 10 ∧ (late.ws 10).timeout = 0 := by
  refine ⟨?_, ⟨0, by decide, rfl, rfl⟩, ⟨rfl, by decide⟩, rfl⟩
  induction l with
  | nil => rfl
  | cons a l ih =>
    obtain ⟨a, timer, now⟩ := a
    simp only [List.map_cons, waits]
    have : wait hd10 react probe (fun s _ => (s.cnt, a)) timer now late = some (late, []) := by
      unfold wait
      dsimp only
      rw [late_minimum]
      dsimp only
      rw [if_neg (by rintro ⟨e, _⟩; exact absurd e (by decide))]
      rfl
    rw [this]; dsimp only; rw [ih]; rfl

/-- and such answers are within the contract of the system -/
theorem C103_starved_contract (a timer now : Int) : Contract (fun _ => False) (fun _ => False) (minimum late).1 (asked timer now late) now late.cnt a := by
  rw [late_minimum]
  exact ⟨.inl (Nat.le_refl _), fun h => absurd h (Nat.lt_irrefl _), fun h => absurd h (by decide), fun h => absurd h (by decide)⟩

/-- three waits with the limits 5 s, 3 ms and none, handles 1, 2 and 3 -/
def three : St := (run hd10 {} [.set 10 false, .process 0, .reset 10 50000000, .set 10 false, .set 20 false, .process 1, .reset 20 30000, .set 20 false, .set 30 false, .process 2,
  .reset 30 (2 ^ 64 - 1), .set 30 false]).getD {}

/-- the loop asks for 3 ms; a time-out resolves wait 20 only; a signalled handle 3 resolves wait 30 only; when handle 1 turns out to be invalid wait 10 is told so, and the others stay -/
theorem C103_example :
    asked (2 ^ 64 - 1) 0 three = 3 ∧
    (wait hd10 quiet (fun _ _ => 0x102) (fun _ _ => (0x102, 30005)) (2 ^ 64 - 1) 0 three).map (·.2) = some [⟨20, 0x102, 30000⟩] ∧
    (wait hd10 quiet (fun _ _ => 0x102) (fun _ _ => (2, 5)) (2 ^ 64 - 1) 0 three).map (·.2) = some [⟨30, 0, 2 ^ 64 - 1⟩] ∧
    (wait hd10 quiet (fun _ h => if h = 1 then 0xFFFFFFFF else 0x102) (fun _ _ => (0xFFFFFFFF, 5)) (2 ^ 64 - 1) 0 three).map (fun a => (a.2, a.1.cnt)) =
      some ([⟨10, 0xFFFFFFFF, 50000000⟩], 2) ∧
    (wait hd10 quiet (fun _ _ => 0x102) (fun _ _ => (0x102, 30005)) 20000 0 three).map (·.2) = some [] := by
  refine ⟨?_, ?_, ?_, ?_, ?_⟩ <;> decide +kernel

end Verif.WaitLoop
