import Verif.ProxyTimer.Model
import Verif.TimingWheel.Props

/-! Invariants of the proxy runner's timers. -/
namespace Verif.ProxyTimer
open Verif.TimingWheel

/-- a call of `SetTimerInternal` at 205 is the innermost call, or the innermost but for an `ExecuteTimerTasks` it made -/
def Shape : List Frame → Prop
  | [] => True
  | f :: r => (r.head? = some .set2 → ∃ p, f = .exec p) ∧ Shape r

/-- the number of calls of `SetTimerInternal` -/
def sets : List Frame → Nat
  | [] => 0
  | .set1 :: r => sets r + 1
  | .set2 :: r => sets r + 1
  | _ :: r => sets r

/-- the outermost call of `SetTimerInternal` -/
def bottom : List Frame → Option Frame
  | [] => none
  | f :: r => match bottom r with
    | some b => some b
    | none => match f with
      | .set1 => some .set1
      | .set2 => some .set2
      | _ => none

/-- some call will still compare the wake-up times (299) -/
def Will (st : List Frame) : Prop := (∃ p, Frame.exec p ∈ st) ∨ bottom st = some .set1

theorem Will.cons {f st} (h : Will st) : Will (f :: st) := by
  rcases h with ⟨p, h⟩ | h
  · exact .inl ⟨p, List.mem_cons_of_mem _ h⟩
  · right; simp [bottom, h]

theorem will_exec (p st) : Will (.exec p :: st) := .inl ⟨p, List.mem_cons_self⟩

theorem bottom_mem {st b} (h : bottom st = some b) : b ∈ st ∧ (b = .set1 ∨ b = .set2) := by
  induction st with
  | nil => cases h
  | cons f r ih =>
    unfold bottom at h
    cases hb : bottom r with
    | some x =>
      rw [hb] at h ih
      obtain ⟨h1, h2⟩ := ih h
      exact ⟨List.mem_cons_of_mem _ h1, h2⟩
    | none =>
      rw [hb] at h
      cases f <;> simp at h <;> subst h <;> simp

theorem bottom_none {st} (h : bottom st = none) : sets st = 0 := by
  induction st with
  | nil => rfl
  | cons f r ih =>
    unfold bottom at h
    cases hb : bottom r with
    | some x => rw [hb] at h; cases h
    | none => rw [hb] at h; cases f <;> simp at h <;> simp [sets, ih hb]

theorem shape_exec {st} (h : Shape st) (hm : Frame.set2 ∈ st) (ht : st.head? ≠ some .set2) : ∃ p, Frame.exec p ∈ st := by
  induction st with
  | nil => cases hm
  | cons f r ih =>
    rcases List.mem_cons.1 hm with hm | hm
    · subst hm; simp at ht
    · by_cases hr : r.head? = some .set2
      · obtain ⟨p, hp⟩ := h.1 hr
        exact ⟨p, by simp [hp]⟩
      · obtain ⟨p, hp⟩ := ih h.2 hm hr
        exact ⟨p, List.mem_cons_of_mem _ hp⟩

theorem user_top {s : St} (h : User s) : s.stack.head? ≠ some .set2 := by
  intro hh
  have := h .set2 (by rw [hh]; rfl)
  cases this

theorem will_set {s : St} (hu : User s) (h : Shape s.stack) : Will (.set1 :: s.stack) := by
  cases hb : bottom s.stack with
  | none => right; simp [bottom, hb]
  | some b =>
    obtain ⟨h1, h2 | h2⟩ := bottom_mem hb
    · subst h2; right; simp [bottom, hb]
    · subst h2
      obtain ⟨p, hp⟩ := shape_exec h h1 (user_top hu)
      exact .inl ⟨p, List.mem_cons_of_mem _ hp⟩

/-- the invariant of the calls -/
structure Calls (s : St) : Prop where
  shape : Shape s.stack
  count : s.count = sets s.stack
  sync : s.known = wakeup s.m ∨ Will s.stack

theorem arm_m (K s) : (arm K s).m = s.m := by
  unfold arm; split <;> split <;> rfl

theorem arm_stack (K s) : (arm K s).stack = s.stack := by
  unfold arm; split <;> split <;> rfl

theorem arm_count (K s) : (arm K s).count = s.count := by
  unfold arm; split <;> split <;> rfl

theorem arm_known (K s) : (arm K s).known = wakeup s.m := by
  unfold arm
  split
  · rename_i h; split
    · rename_i h2; rw [h2, h]
    · exact h.symm
  · rename_i h; split
    · rename_i h2; rw [h2, h]
    · exact h.symm

/-- the events of a runner whose timers are set by its own thread only -/
def Own (_ : St) : Ev → Prop
  | .posted _ => False
  | _ => True

theorem calls_step {K s e s'} (i : Calls s) (o : Own s e) (h : Step K s e s') : Calls s' := by
  obtain ⟨sh, ct, sy⟩ := i
  cases h with
  | tick => exact ⟨sh, ct, sy⟩
  | cancel => exact ⟨sh, ct, sy⟩
  | remote => exact ⟨sh, ct, sy⟩
  | posted => exact o.elim
  | here t hu =>
    have hw := will_set hu sh
    have ht := user_top hu
    have hsh : Shape (.set1 :: s.stack) := ⟨fun h => absurd h ht, sh⟩
    unfold put
    cases hb : (setTimer K s.m t).2 with
    | true =>
      refine ⟨?_, ?_, .inr ?_⟩
      · simp only [hb, if_true]; exact ⟨by simp, hsh⟩
      · simp only [hb, if_true]; simp [sets, ct]
      · simp only [hb, if_true]; exact hw.cons
    | false =>
      refine ⟨?_, ?_, .inr ?_⟩
      · simp only [hb]; exact hsh
      · simp only [hb]; simp [sets, ct]
      · simp only [hb]; exact hw
  | timer o hu => exact ⟨⟨fun h => absurd h (user_top hu), sh⟩, by simpa [enter, sets] using ct, .inr (will_exec _ _)⟩
  | first r hs hc =>
    rw [hs] at sh ct sy
    refine ⟨⟨fun _ => ⟨_, rfl⟩, ?_, sh.2⟩, ?_, .inr (will_exec _ _)⟩
    · intro h; obtain ⟨p, hp⟩ := sh.1 h; cases hp
    · simp only [enter, sets] at ct ⊢; exact ct
  | skip r hs hc =>
    rw [hs] at sh ct sy
    refine ⟨⟨?_, sh.2⟩, ?_, ?_⟩
    · intro h; obtain ⟨p, hp⟩ := sh.1 h; cases hp
    · simp only [sets] at ct ⊢; exact ct
    · rcases sy with sy | ⟨p, hp⟩ | hb
      · exact .inl sy
      · rcases List.mem_cons.1 hp with hp | hp
        · cases hp
        · exact .inr (.inl ⟨p, List.mem_cons_of_mem _ hp⟩)
      · refine .inr (.inr ?_)
        cases hbr : bottom r with
        | none =>
          have := bottom_none hbr
          simp only [sets] at ct
          omega
        | some b => simp only [bottom, hbr] at hb ⊢; exact hb
  | leave r hs =>
    rw [hs] at sh ct sy
    refine ⟨sh.2, by simp [ct, sets], ?_⟩
    rcases sy with sy | ⟨p, hp⟩ | hb
    · exact .inl sy
    · rcases List.mem_cons.1 hp with hp | hp
      · cases hp
      · exact .inr (.inl ⟨p, hp⟩)
    · refine .inr (.inr ?_)
      cases hbr : bottom r with
      | none => simp [bottom, hbr] at hb
      | some b => simp only [bottom, hbr] at hb; exact hb
  | dispatch t p r hs =>
    rw [hs] at sh ct
    exact ⟨⟨by simp, fun _ => ⟨_, rfl⟩, sh.2⟩, by simpa [sets] using ct, .inr (will_exec _ _).cons⟩
  | arm r hs =>
    rw [hs] at sh ct
    exact ⟨by rw [arm_stack]; exact sh.2, by rw [arm_count, arm_stack]; simpa [sets] using ct, .inl (by rw [arm_known, arm_m])⟩
  | ret r hs =>
    rw [hs] at sh ct sy
    refine ⟨sh.2, by simpa [sets] using ct, ?_⟩
    rcases sy with sy | ⟨p, hp⟩ | hb
    · exact .inl sy
    · rcases List.mem_cons.1 hp with hp | hp
      · cases hp
      · exact .inr (.inl ⟨p, hp⟩)
    · refine .inr (.inr ?_)
      cases hbr : bottom r with
      | none => simp [bottom, hbr] at hb
      | some b => simp only [bottom, hbr] at hb; exact hb

theorem calls_reach {K ok now s} (ho : ∀ s e, ok s e → Own s e) (r : Reach K ok (start K now) s) : Calls s := by
  induction r with
  | refl => exact ⟨trivial, rfl, .inl (by simp [start, wakeup, new, isEmpty])⟩
  | step _ h st ih => exact calls_step ih (ho _ _ h) st

/-! ### The window's timer -/

/-- what is known about a running window timer -/
def OsOk (K : Nat) (s : St) : Prop :=
  match s.os with
  | none => s.known = none
  | some o => ∃ W, s.known = some W ∧ 1 ≤ o.n ∧ o.since ≤ s.now ∧ 10 ≤ o.period ∧
      o.period * K ≤ max (10 * K) (W * K - o.since) ∧ (W * K < o.since + (o.period + 1) * K ∨ o.period = 2147483647)

theorem arm_os {K s} (hK : 0 < K) (h : OsOk K s) : OsOk K (arm K s) := by
  unfold arm
  split
  · split
    · exact h
    · rfl
  · rename_i W hW
    split
    · exact h
    · refine ⟨W, rfl, Nat.le_refl 1, Nat.le_refl _, ?_, ?_, ?_⟩
      · dsimp only; unfold clip; omega
      · dsimp only
        unfold clip wait
        by_cases h1 : W * K ≤ s.now
        · rw [if_pos h1, if_neg (by decide)]
          exact Nat.le_trans (Nat.mul_le_mul_right K (by omega)) (Nat.le_max_left _ _)
        · rw [if_neg h1]
          have hq : (W * K - s.now) / K * K ≤ W * K - s.now := Nat.div_mul_le_self _ _
          generalize (W * K - s.now) / K = q at *
          generalize hp : max 10 (min (if (if 4294967295 ≤ q then 4294967295 else max q 1) = 0 then 1 else if 4294967295 ≤ q then 4294967295 else max q 1) 2147483647) = p
          have hpq : p ≤ 10 ∨ p ≤ q := by subst hp; split <;> split at * <;> omega
          rcases hpq with hpq | hpq
          · exact Nat.le_trans (Nat.mul_le_mul_right K hpq) (Nat.le_max_left _ _)
          · exact Nat.le_trans (Nat.le_trans (Nat.mul_le_mul_right K hpq) hq) (Nat.le_max_right _ _)
      · dsimp only
        unfold clip wait
        by_cases h1 : W * K ≤ s.now
        · left
          rw [if_pos h1, if_neg (by decide)]
          have : 0 < (max 10 (min 1 2147483647) + 1) * K := Nat.mul_pos (by omega) hK
          omega
        · rw [if_neg h1]
          have hq : W * K - s.now < ((W * K - s.now) / K + 1) * K := by
            have := Nat.lt_mul_div_succ (W * K - s.now) hK
            rwa [Nat.mul_comm K] at this
          generalize hx : (W * K - s.now) / K = q at *
          generalize hp : max 10 (min (if (if 4294967295 ≤ q then 4294967295 else max q 1) = 0 then 1 else if 4294967295 ≤ q then 4294967295 else max q 1) 2147483647) = p
          have hpq : p = 2147483647 ∨ q ≤ p := by subst hp; split <;> split at * <;> omega
          rcases hpq with hpq | hpq
          · exact .inr hpq
          · left
            have := Nat.mul_le_mul_right K (Nat.succ_le_succ hpq)
            simp only [Nat.succ_eq_add_one] at this
            omega

theorem os_step {K s e s'} (hK : 0 < K) (i : OsOk K s) (h : Step K s e s') : OsOk K s' := by
  cases h with
  | tick d =>
    unfold OsOk at i ⊢
    dsimp only
    cases ho : s.os with
    | none => rw [ho] at i; exact i
    | some o =>
      rw [ho] at i
      obtain ⟨W, h1, h2, h3, h4⟩ := i
      exact ⟨W, h1, h2, by omega, h4⟩
  | cancel => exact i
  | remote => exact i
  | posted => exact i
  | here => exact i
  | timer o hu ho =>
    unfold OsOk at i
    rw [ho] at i
    obtain ⟨W, h1, h2, h3⟩ := i
    exact ⟨W, h1, by dsimp only; omega, h3⟩
  | first => exact i
  | skip => exact i
  | leave => exact i
  | dispatch => exact i
  | arm r => exact arm_os hK i
  | ret => exact i

theorem os_reach {K ok now s} (hK : 0 < K) (r : Reach K ok (start K now) s) : OsOk K s := by
  induction r with
  | refl => rfl
  | step _ _ st ih => exact os_step hK ih st

/-! ### The manager behind the runner -/

/-- the timers taken out of the wheel and not yet dispatched, those of the outermost call first -/
def pends : List Frame → List Tm
  | [] => []
  | .exec p :: r => pends r ++ p
  | _ :: r => pends r

/-- the runner as a history of its manager -/
def world (s : St) : World := { m := s.m, pend := pends s.stack, canc := s.canc, set := s.set, far := s.far, fired := s.fired }

/-- `Fine` (C41) for the calls that the runner makes -/
def Calm (K : Nat) (s : St) : Ev → Prop
  | .here t => s.m.last < t.exp → s.m.base < ms K t.exp
  | .posted t => s.m.last < t.exp → s.m.base < ms K t.exp
  | .timer => Clean s.m.base (ms K s.now)
  | .go => s.stack.head? = some .set1 → Clean s.m.base (ms K s.now)
  | _ => True

theorem put_world (K : Nat) (s : St) (t : Tm) : world (put K s t) = (world s).set' K t := by
  unfold put world World.set'
  dsimp only
  cases (setTimer K s.m t).2 <;> rfl

theorem enter_world (K : Nat) (s : St) : world (enter K s) = (world s).process' K s.now := rfl

theorem arm_world (K : Nat) (s : St) : world (arm K s) = world s := by
  unfold arm; split <;> split <;> rfl

theorem world_step {K s e s'} (h : Step K s e s') :
    world s' = world s ∨ ∃ e', TimingWheel.Step K (world s) e' (world s') ∧ (Calm K s e → Fine K (world s) e') := by
  cases h with
  | tick => exact .inl rfl
  | cancel i => exact .inr ⟨_, .cancel (world s) i, fun _ => trivial⟩
  | remote => exact .inl rfl
  | posted t r => exact .inr ⟨.set t, by rw [put_world]; exact .set (world s) t, id⟩
  | here t => exact .inr ⟨.set t, by rw [put_world]; exact .set (world s) t, id⟩
  | timer o => exact .inr ⟨.process s.now, by rw [enter_world]; exact .process (world s) s.now, id⟩
  | first r hs =>
    refine .inr ⟨.process s.now, ?_, fun c => c (by rw [hs]; rfl)⟩
    rw [enter_world]
    have : world { s with stack := .set2 :: r } = world s := by simp [world, hs, pends]
    rw [this]; exact .process (world s) s.now
  | skip r hs => exact .inl (by simp [world, hs, pends])
  | leave r hs => exact .inl (by simp [world, hs, pends])
  | dispatch t p r hs =>
    exact .inr ⟨.fire t, .fire (world s) t (pends r) p (by simp [world, hs, pends]), fun _ => trivial⟩
  | arm r hs => exact .inl (by rw [arm_world]; simp [world, hs, pends])
  | ret r hs => exact .inl (by simp [world, hs, pends])

theorem world_reach {K ok now s} (r : Reach K ok (start K now) s) : TimingWheel.Reach K (fun _ _ => True) (TimingWheel.start K now) (world s) := by
  induction r with
  | refl => exact .refl
  | step _ _ st ih =>
    rcases world_step st with h | ⟨e', h, _⟩
    · rw [h]; exact ih
    · exact .step ih trivial h

theorem world_fine {K ok now s} (hc : ∀ s e, ok s e → Calm K s e) (r : Reach K ok (start K now) s) :
    TimingWheel.Reach K (Fine K) (TimingWheel.start K now) (world s) := by
  induction r with
  | refl => exact .refl
  | step _ o st ih =>
    rcases world_step st with h | ⟨e', h, hf⟩
    · rw [h]; exact ih
    · exact .step ih (hf (hc _ _ o)) h

end Verif.ProxyTimer
