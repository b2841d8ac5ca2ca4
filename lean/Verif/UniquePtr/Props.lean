import Verif.UniquePtr.Model
/-!
# C30 – `UniquePtr` owns exclusively
-/
namespace Verif.UniquePtr

/-! ## Specification: who owns each object -/

inductive Owner where
  /-- not allocated yet, or deleted -/
  | gone
  /-- the program is responsible for it -/
  | program
  /-- UniquePtr `i` is responsible for it -/
  | handle (i : Nat)
deriving DecidableEq

structure Abs where
  own : Nat → Owner
  next : Nat

/-- ownership after the call -/
def specStep (A : Abs) : Op → Abs
  | .ctor _ | .get _ => A
  | .create i => { own := upd A.own A.next (.handle i), next := A.next + 1 }
  | .fromRaw i p => { A with own := fun o => if p = some o then .handle i else A.own o }
  | .moveCtor i j => { A with own := fun o => if A.own o = .handle j then .handle i else A.own o }
  | .dtor i => { A with own := fun o => if A.own o = .handle i then .gone else A.own o }
  | .reset i p => { A with own := fun o => if p = some o then .handle i else if A.own o = .handle i then .gone else A.own o }
  | .detach i => { A with own := fun o => if A.own o = .handle i then .program else A.own o }
  | .assignMove i j =>
    if i = j then A
    else { A with own := fun o => if A.own o = .handle j then .handle i else if A.own o = .handle i then .gone else A.own o }
  | .newRaw => { own := upd A.own A.next .program, next := A.next + 1 }
  | .deleteRaw p => { A with own := upd A.own p .gone }

/-- what the call returns: `Get` and `Detach` the object the handle owns (null if it owns none), `new` the new object -/
def specRet (A : Abs) : Op → Option Nat → Prop
  | .get i, r | .detach i, r => ∀ o, r = some o ↔ A.own o = .handle i
  | .newRaw, r => r = some A.next
  | _, r => r = none

/-- Caller obligations: a handle is constructed in storage that owns nothing; a raw pointer passed in is owned by the program. -/
def Allowed (A : Abs) : Op → Prop
  | .ctor i | .create i => ∀ o, A.own o ≠ .handle i
  | .fromRaw i p => (∀ o, A.own o ≠ .handle i) ∧ ∀ o, p = some o → A.own o = .program
  | .moveCtor i j => (∀ o, A.own o ≠ .handle i) ∧ i ≠ j
  | .reset _ p => ∀ o, p = some o → A.own o = .program
  | .deleteRaw p => A.own p = .program
  | _ => True

def specRun (A : Abs) : List Op → Abs
  | [] => A
  | op :: ops => specRun (specStep A op) ops

def AllowedRun (A : Abs) : List Op → Prop
  | [] => True
  | op :: ops => Allowed A op ∧ AllowedRun (specStep A op) ops

/-- the results of a history -/
def RetsRun (A : Abs) : List Op → List (Option Nat) → Prop
  | [], rs => rs = []
  | op :: ops, r :: rs => specRet A op r ∧ RetsRun (specStep A op) ops rs
  | _ :: _, [] => False

/-! ## Refinement -/

structure Rel (w : World) (A : Abs) : Prop where
  next : w.next = A.next
  own : ∀ i o, w.h i = some o ↔ A.own o = .handle i
  live : ∀ o, w.live o = true ↔ A.own o ≠ .gone
  fresh : ∀ o, A.next ≤ o → A.own o = .gone

theorem reset_eq (w : World) (i : Nat) (p : Option Nat) (h : ∀ o, w.h i = some o → w.live o = true) :
    ∃ w', reset w i p = some w' ∧ w'.next = w.next ∧ w'.h = upd w.h i p ∧ ∀ o, w'.live o = true ↔ (w.live o = true ∧ w.h i ≠ some o) := by
  unfold reset
  cases hi : w.h i with
  | none => exact ⟨_, rfl, rfl, rfl, by simp⟩
  | some a =>
    have := h a hi
    refine ⟨{ w with h := upd w.h i p, live := upd w.live a false }, by simp [delete, this], rfl, rfl, fun o => ?_⟩
    simp only [upd]; grind

theorem step_rel {w A} (r : Rel w A) (op : Op) (ha : Allowed A op) :
    ∃ w' x, step w op = some (w', x) ∧ specRet A op x ∧ Rel w' (specStep A op) := by
  obtain ⟨r1, r2, r3, r4⟩ := r
  have hlive : ∀ i o, w.h i = some o → w.live o = true := by
    intro i o h
    rw [r3, (r2 i o).1 h]; simp
  cases op with
  | ctor i =>
    refine ⟨_, _, rfl, rfl, ⟨r1, fun k o => ?_, r3, r4⟩⟩
    have ha : ∀ o, A.own o ≠ .handle i := ha
    have := r2 i o; have := r2 k o; have := ha o
    simp only [upd, specStep]; grind
  | create i =>
    have ha : ∀ o, A.own o ≠ .handle i := ha
    have h0 := r4 A.next (by omega)
    refine ⟨_, _, rfl, rfl, ⟨by simp [specStep, r1], fun k o => ?_, fun o => ?_, fun o ho => ?_⟩⟩
    · have := r2 i o; have := r2 k o; have := ha o
      simp only [upd, specStep, r1]; grind
    · have := r3 o
      simp only [upd, specStep, r1]; grind
    · simp only [upd, specStep] at *
      have := r4 o (by omega)
      grind
  | fromRaw i p =>
    obtain ⟨h1, h2⟩ := ha
    refine ⟨_, _, rfl, rfl, ⟨r1, fun k o => ?_, fun o => ?_, fun o ho => ?_⟩⟩
    · have := r2 i o; have := r2 k o; have := h1 o; have := h2 o
      simp only [upd, specStep]; grind
    · have := r3 o; have := h2 o
      simp only [specStep]; grind
    · simp only [specStep] at *
      have := r4 o ho; have := h2 o
      grind
  | moveCtor i j =>
    obtain ⟨h1, h2⟩ := ha
    refine ⟨_, _, rfl, rfl, ⟨r1, fun k o => ?_, fun o => ?_, fun o ho => ?_⟩⟩
    · have := r2 i o; have := r2 j o; have := r2 k o; have := h1 o
      simp only [upd, specStep]; grind
    · have := r3 o
      simp only [specStep]; grind
    · simp only [specStep] at *
      have := r4 o ho
      grind
  | dtor i =>
    obtain ⟨w', e1, e2, e3, e4⟩ := reset_eq w i none (hlive i)
    refine ⟨w', none, by simp [step, e1], rfl, ⟨by simp [e2, specStep, r1], fun k o => ?_, fun o => ?_, fun o ho => ?_⟩⟩
    · have := r2 i o; have := r2 k o
      rw [e3]; simp only [upd, specStep]; grind
    · have := r2 i o; have := r3 o
      rw [e4]; simp only [specStep]; grind
    · simp only [specStep] at *
      have := r4 o ho
      grind
  | reset i p =>
    have ha : ∀ o, p = some o → A.own o = .program := ha
    obtain ⟨w', e1, e2, e3, e4⟩ := reset_eq w i p (hlive i)
    refine ⟨w', none, by simp [step, e1], rfl, ⟨by simp [e2, specStep, r1], fun k o => ?_, fun o => ?_, fun o ho => ?_⟩⟩
    · have := r2 i o; have := r2 k o; have := ha o
      rw [e3]; simp only [upd, specStep]; grind
    · have := r2 i o; have := r3 o; have := ha o
      rw [e4]; simp only [specStep]; grind
    · simp only [specStep] at *
      have := r4 o ho; have := ha o
      grind
  | detach i =>
    refine ⟨_, _, rfl, fun o => r2 i o, ⟨r1, fun k o => ?_, fun o => ?_, fun o ho => ?_⟩⟩
    · have := r2 i o; have := r2 k o
      simp only [upd, specStep]; grind
    · have := r3 o
      simp only [specStep]; grind
    · simp only [specStep] at *
      have := r4 o ho
      grind
  | assignMove i j =>
    by_cases hij : i = j
    · refine ⟨w, none, by simp [step, hij], rfl, ?_⟩
      simp only [specStep, hij, if_true]; exact ⟨r1, r2, r3, r4⟩
    · simp only [specStep, hij, if_false]
      by_cases he : w.h i = w.h j
      · -- both null
        have hn : w.h i = none := by
          cases hi : w.h i with
          | none => rfl
          | some a =>
            have q1 := (r2 i a).1 hi
            have q2 := (r2 j a).1 (by rw [← he, hi])
            rw [q1] at q2
            exact absurd (Owner.handle.inj q2) hij
        refine ⟨w, none, by simp [step, he], rfl, ⟨r1, fun k o => ?_, fun o => ?_, fun o ho => ?_⟩⟩
        all_goals
          have := r2 i o; have := r2 j o; have := r3 o; have := r4 o
        · have := r2 k o; grind
        · grind
        · grind
      · have hi' : (upd w.h j none) i = w.h i := by simp [upd, hij]
        obtain ⟨w', e1, e2, e3, e4⟩ := reset_eq { w with h := upd w.h j none } i (w.h j) (by
          intro o ho
          exact hlive i o (by rw [← hi']; exact ho))
        simp only [hi'] at e4
        refine ⟨w', none, by simp only [step, if_pos he, e1]; rfl, rfl, ⟨by rw [e2]; exact r1, fun k o => ?_, fun o => ?_, fun o ho => ?_⟩⟩
        all_goals
          have := r2 i o; have := r2 j o; have := r3 o; have := r4 o
        · have := r2 k o
          rw [e3]; simp only [upd]; grind
        · rw [e4]; grind
        · grind
  | get i => exact ⟨_, _, rfl, fun o => r2 i o, ⟨r1, r2, r3, r4⟩⟩
  | newRaw =>
    have h0 := r4 A.next (by omega)
    refine ⟨_, _, rfl, by simp [specRet, r1], ⟨by simp [specStep, r1], fun k o => ?_, fun o => ?_, fun o ho => ?_⟩⟩
    · have := r2 k o
      simp only [upd, specStep]; grind
    · have := r3 o
      simp only [upd, specStep, r1]; grind
    · simp only [upd, specStep] at *
      have := r4 o (by omega)
      grind
  | deleteRaw p =>
    have ha : A.own p = .program := ha
    have hl : w.live p = true := by rw [r3, ha]; simp
    refine ⟨{ w with live := upd w.live p false }, none, by simp [step, delete, hl], rfl, ⟨r1, fun k o => ?_, fun o => ?_, fun o ho => ?_⟩⟩
    · have := r2 k o
      simp only [upd, specStep]; grind
    · have := r3 o
      simp only [upd, specStep]; grind
    · simp only [upd, specStep] at *
      have := r4 o ho
      grind

theorem run_rel {w A} (r : Rel w A) (ops : List Op) (ha : AllowedRun A ops) :
    ∃ w' rs, run w ops = some (w', rs) ∧ RetsRun A ops rs ∧ Rel w' (specRun A ops) := by
  induction ops generalizing w A with
  | nil => exact ⟨w, [], rfl, rfl, r⟩
  | cons op ops ih =>
    obtain ⟨w1, x, h1, h2, h3⟩ := step_rel r op ha.1
    obtain ⟨w2, rs, g1, g2, g3⟩ := ih h3 ha.2
    exact ⟨w2, x :: rs, by simp [run, h1, g1], ⟨h2, g2⟩, g3⟩

/-- **C30.** For every history of constructions, moves, resets, detaches and destructions on any number of UniquePtrs that respects the
caller obligations: nothing is deleted twice (no undefined behaviour), `Get`/`Detach` return exactly the owned object, two different
handles never hold the same object, and an object is live exactly as long as a handle or the program owns it (so every object is deleted
exactly once, when its owner gives it up, unless it was detached). -/
theorem C30_history (ops : List Op) (ha : AllowedRun ⟨fun _ => .gone, 0⟩ ops) :
    ∃ w rs, run {} ops = some (w, rs) ∧ RetsRun ⟨fun _ => .gone, 0⟩ ops rs ∧
      (∀ i o, w.h i = some o ↔ (specRun ⟨fun _ => .gone, 0⟩ ops).own o = .handle i) ∧
      (∀ i j o, w.h i = some o → w.h j = some o → i = j) ∧
      (∀ o, w.live o = true ↔ (specRun ⟨fun _ => .gone, 0⟩ ops).own o ≠ .gone) := by
  have r0 : Rel {} ⟨fun _ => .gone, 0⟩ := ⟨rfl, by simp, by simp, by simp⟩
  obtain ⟨w, rs, h1, h2, h3⟩ := run_rel r0 ops ha
  refine ⟨w, rs, h1, h2, h3.own, fun i j o hi hj => ?_, h3.live⟩
  have e1 := (h3.own i o).1 hi
  have e2 := (h3.own j o).1 hj
  rw [e1] at e2
  exact Owner.handle.inj e2

/-- Non-vacuity: create two objects, move-assign one handle over the other (object 0 is deleted), detach and delete by hand. -/
example : AllowedRun ⟨fun _ => .gone, 0⟩ [.create 0, .create 1, .assignMove 0 1, .assignMove 0 0, .get 0, .detach 0, .deleteRaw 1, .dtor 0] ∧
    (run {} [.create 0, .create 1, .assignMove 0 1, .assignMove 0 0, .get 0, .detach 0, .deleteRaw 1, .dtor 0]).map (·.2) =
      some [none, none, none, none, some 1, some 1, none, none] := by
  constructor
  · simp [AllowedRun, Allowed, specStep, upd]; grind
  · decide

#print axioms C30_history
end Verif.UniquePtr
