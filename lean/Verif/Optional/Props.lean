import Verif.Optional.Model
/-! # C26: Optional constructs and destroys its value exactly once and carries the value -/
namespace Verif.Optional
open Verif.Common
variable {V : Type} [DecidableEq V]

/-! ## Specification: a list of mathematical optional values -/
abbrev Abs (V : Type) := List (Option V)

def specStep (mv : V → V) (A : Abs V) : Op V → Abs V × Obs V
  | .newEmpty => (A ++ [none], .unit)
  | .newVal v => (A ++ [some v], .unit)
  | .newCopy j => (A ++ [A[j]?.join], .unit)
  | .newMove j => ((A ++ [A[j]?.join]).set j none, .unit)
  | .emplace i v => (A.set i (some v), .unit)
  | .emplaceRef i j => (A.set i A[j]?.join, .unit)
  | .reset i => (A.set i none, .unit)
  | .assignVal i v => (A.set i (some v), .unit)
  | .assignRef i j => (A.set i A[j]?.join, .unit)
  | .assignMoveRef i j => (if i = j then A else (A.set i A[j]?.join).set j (A[j]?.join.map mv), .unit)
  | .assign i j => (A.set i A[j]?.join, .unit)
  | .assignMove i j => (if i = j then A else (A.set i A[j]?.join).set j none, .unit)
  | .get i => (A, match A[i]?.join with | some v => .val v | none => .unit)
  | .hasValue i => (A, .bool A[i]?.join.isSome)
  | .eq i j => (A, .bool (decide (A[i]?.join = A[j]?.join)))
  | .ne i j => (A, .bool (decide (A[i]?.join ≠ A[j]?.join)))

/-- Caller obligations: the objects exist; `GetValue` only on an Optional that has a value; the argument of `Emplace` is not the value being replaced. -/
def Allowed (A : Abs V) : Op V → Prop
  | .newEmpty => True
  | .newVal _ => True
  | .newCopy j => j < A.length
  | .newMove j => j < A.length
  | .emplace i _ => i < A.length
  | .emplaceRef i j => i < A.length ∧ i ≠ j ∧ A[j]?.join.isSome
  | .reset i => i < A.length
  | .assignVal i _ => i < A.length
  | .assignRef i j => i < A.length ∧ A[j]?.join.isSome
  | .assignMoveRef i j => i < A.length ∧ A[j]?.join.isSome
  | .assign i j => i < A.length ∧ j < A.length
  | .assignMove i j => i < A.length ∧ j < A.length
  | .get i => A[i]?.join.isSome
  | .hasValue i => i < A.length
  | .eq i j => i < A.length ∧ j < A.length
  | .ne i j => i < A.length ∧ j < A.length

def specRun (mv : V → V) (A : Abs V) : List (Op V) → Abs V × List (Obs V)
  | [] => (A, [])
  | op :: ops => let (A, r) := specStep mv A op; let (A, rs) := specRun mv A ops; (A, r :: rs)

def AllowedRun (mv : V → V) (A : Abs V) : List (Op V) → Prop
  | [] => True
  | op :: ops => Allowed A op ∧ AllowedRun mv (specStep mv A op).1 ops

/-- number of Optionals that have a value -/
def withValue (A : Abs V) : Nat := (A.filter Option.isSome).length

/-! ## Refinement -/
def enc (x : Option V) : Obj V := ⟨x.isSome, x⟩
def world (A : Abs V) (m k : Nat) : World V := ⟨A.map enc, m, k⟩

def cnt (x : Option V) : Nat := if x.isSome then 1 else 0

omit [DecidableEq V] in
theorem withValue_eq (A : Abs V) : withValue A = sumBy cnt A := by
  induction A with
  | nil => rfl
  | cons x A ih =>
    unfold withValue at *
    cases x <;> simp [cnt, ih]; omega

omit [DecidableEq V] in
theorem get_world (A : Abs V) (m k i : Nat) : (world A m k).objs[i]? = (A[i]?).map enc := by simp [world]

omit [DecidableEq V] in
theorem set_world (A : Abs V) (m k i x) : (world A m k).set i (enc x) = world (A.set i x) m k := by simp [world, World.set, List.map_set]

omit [DecidableEq V] in
theorem push_world (A : Abs V) (m k x) : (world A m k).push (enc x) = world (A ++ [x]) m k := by simp [world, World.push]

/-- the world holds exactly the abstract values and the books balance -/
def Rel (A : Abs V) (w : World V) : Prop := ∃ m k, w = world A m k ∧ m = k + sumBy cnt A


omit [DecidableEq V] in
theorem set_same {A : Abs V} {i : Nat} {x : Option V} (h : A[i]? = some x) : A.set i x = A := by
  apply List.ext_getElem?
  intro j
  rw [List.getElem?_set]
  split
  · subst_vars; have := (List.getElem?_eq_some_iff.1 h).1; rw [if_pos this, h]
  · rfl

omit [DecidableEq V] in
theorem some_of_join {A : Abs V} {i : Nat} (h : A[i]?.join.isSome) : ∃ v, A[i]? = some (some v) := by
  cases h' : A[i]? with
  | none => simp [h'] at h
  | some x => cases x with
    | none => simp [h'] at h
    | some v => exact ⟨v, rfl⟩

omit [DecidableEq V] in
theorem lt_of_get {A : Abs V} {i : Nat} {x : Option V} (h : A[i]? = some x) : i < A.length := (List.getElem?_eq_some_iff.1 h).1

omit [DecidableEq V] in
theorem get_of_lt {A : Abs V} {i : Nat} (h : i < A.length) : ∃ x, A[i]? = some x := ⟨A[i], by simp [h]⟩

omit [DecidableEq V] in
theorem reset_rel (A : Abs V) (w : World V) (h : Rel A w) (i : Nat) (hi : i < A.length) :
    ∃ w', reset w i = some w' ∧ Rel (A.set i none) w' := by
  obtain ⟨m, k, rfl, hb⟩ := h
  obtain ⟨x, hx⟩ := get_of_lt hi
  have hs := sumBy_set cnt A i none x hx
  cases x with
  | none =>
    refine ⟨world A m k, ?_, m, k, ?_, ?_⟩
    · simp [reset, get_world, hx, enc]
    · rw [set_same hx]
    · simp [cnt] at hs ⊢; omega
  | some v =>
    refine ⟨world (A.set i none) m (k + 1), ?_, m, k + 1, rfl, ?_⟩
    · simp [reset, get_world, hx, enc, world, World.set, List.map_set]
    · simp [cnt] at hs ⊢; omega

omit [DecidableEq V] in
theorem value_rel {A : Abs V} {w : World V} (h : Rel A w) (i : Nat) : value w i = A[i]?.join := by
  obtain ⟨m, k, rfl, -⟩ := h
  unfold value
  rw [get_world]
  cases h : A[i]? with
  | none => rfl
  | some x => cases x <;> rfl

omit [DecidableEq V] in
theorem obj_rel {A : Abs V} {w : World V} (h : Rel A w) (i : Nat) : w.objs[i]? = A[i]?.map enc := by
  obtain ⟨m, k, rfl, -⟩ := h
  exact get_world _ _ _ _

omit [DecidableEq V] in
theorem construct_rel {A : Abs V} {w : World V} (h : Rel A w) (i : Nat) (hx : A[i]? = some none) (v : V) :
    ∃ w', construct w i v = some w' ∧ Rel (A.set i (some v)) w' := by
  obtain ⟨m, k, rfl, hb⟩ := h
  have hs := sumBy_set cnt A i (some v) none hx
  refine ⟨world (A.set i (some v)) (m + 1) k, ?_, m + 1, k, rfl, ?_⟩
  · simp [construct, get_world, hx, world, World.set, List.map_set, enc]
  · simp [cnt] at hs ⊢; omega

omit [DecidableEq V] in
/-- changing a value in place -/
theorem overwrite_rel {A : Abs V} {w : World V} (h : Rel A w) (i : Nat) (u v : V) (hx : A[i]? = some (some u)) :
    Rel (A.set i (some v)) (w.set i ⟨true, some v⟩) := by
  obtain ⟨m, k, rfl, hb⟩ := h
  have hs := sumBy_set cnt A i (some v) (some u) hx
  exact ⟨m, k, set_world A m k i (some v), by simp [cnt] at hs; omega⟩

omit [DecidableEq V] in
theorem moved_rel (mv : V → V) {A : Abs V} {w : World V} (h : Rel A w) (i : Nat) (v : V) (hx : A[i]? = some (some v)) :
    Rel (A.set i (some (mv v))) (movedFrom mv w i) := by
  have := overwrite_rel h i v (mv v) hx
  simpa [movedFrom, obj_rel h, hx, enc] using this

omit [DecidableEq V] in
theorem push_rel {A : Abs V} {w : World V} (h : Rel A w) (v : V) : Rel (A ++ [some v]) { w.push ⟨true, some v⟩ with made := w.made + 1 } := by
  obtain ⟨m, k, rfl, hb⟩ := h
  exact ⟨m + 1, k, by simp [world, World.push, enc], by simp [sumBy_append, cnt]; omega⟩

omit [DecidableEq V] in
theorem push_none_rel {A : Abs V} {w : World V} (h : Rel A w) : Rel (A ++ [none]) (w.push {}) := by
  obtain ⟨m, k, rfl, hb⟩ := h
  exact ⟨m, k, push_world A m k none, by simp [sumBy_append, cnt]; omega⟩

omit [DecidableEq V] in
theorem assignVal_rel {A : Abs V} {w : World V} (h : Rel A w) (i : Nat) (hi : i < A.length) (v : V) (src : Option Nat) (hs : ∀ j, src = some j → A[j]? = some (some v)) :
    ∃ w', assignVal w i v src = some w' ∧ Rel (A.set i (some v)) w' := by
  obtain ⟨x, hx⟩ := get_of_lt hi
  cases x with
  | none =>
    obtain ⟨w', h1, h2⟩ := construct_rel h i hx v
    exact ⟨w', by simp [assignVal, obj_rel h, hx, enc, h1], h2⟩
  | some u =>
    by_cases hsi : src = some i
    · refine ⟨w, by simp [assignVal, obj_rel h, hx, enc, hsi], ?_⟩
      rwa [set_same (hs i hsi)]
    · exact ⟨_, by simp [assignVal, obj_rel h, hx, enc, hsi], overwrite_rel h i u v hx⟩

omit [DecidableEq V] in
theorem assignMoveVal_rel (mv : V → V) {A : Abs V} {w : World V} (h : Rel A w) (i : Nat) (hi : i < A.length) (v : V) (j : Nat) (hj : A[j]? = some (some v)) :
    ∃ w', assignMoveVal mv w i v (some j) = some w' ∧ Rel (if i = j then A else (A.set i (some v)).set j (some (mv v))) w' := by
  obtain ⟨x, hx⟩ := get_of_lt hi
  cases x with
  | none =>
    have hij : i ≠ j := by rintro rfl; rw [hx] at hj; cases hj
    obtain ⟨w', h1, h2⟩ := construct_rel h i hx v
    have h3 := moved_rel mv h2 j v (by rw [List.getElem?_set_ne hij]; exact hj)
    exact ⟨_, by simp [assignMoveVal, obj_rel h, hx, enc, h1]; rfl, by simpa [hij] using h3⟩
  | some u =>
    by_cases hij : i = j
    · subst hij
      exact ⟨w, by simp [assignMoveVal, obj_rel h, hx, enc], by simpa using h⟩
    · have h2 := overwrite_rel h i u v hx
      have h3 := moved_rel mv h2 j v (by rw [List.getElem?_set_ne hij]; exact hj)
      exact ⟨_, by simp [assignMoveVal, obj_rel h, hx, enc, Ne.symm hij]; rfl, by simpa [hij] using h3⟩

theorem step_rel (mv : V → V) {A : Abs V} {w : World V} (h : Rel A w) (op : Op V) (ha : Allowed A op) :
    ∃ w', step mv w op = some (w', (specStep mv A op).2) ∧ Rel (specStep mv A op).1 w' := by
  cases op with
  | newEmpty => exact ⟨_, rfl, push_none_rel h⟩
  | newVal v => exact ⟨_, rfl, push_rel h v⟩
  | newCopy j =>
    obtain ⟨x, hx⟩ := get_of_lt ha
    cases x with
    | none => exact ⟨_, by simp [step, obj_rel h, hx, enc]; exact ⟨rfl, rfl⟩, by simpa [specStep, hx] using push_none_rel h⟩
    | some v => exact ⟨_, by simp [step, obj_rel h, hx, enc]; exact ⟨rfl, rfl⟩, by simpa [specStep, hx] using push_rel h v⟩
  | newMove j =>
    obtain ⟨x, hx⟩ := get_of_lt ha
    have hj : j < A.length := ha
    cases x with
    | none =>
      refine ⟨_, by simp [step, obj_rel h, hx, enc]; exact ⟨rfl, rfl⟩, ?_⟩
      have : (A ++ [none]).set j none = A ++ [none] := set_same (by rw [List.getElem?_append_left hj]; exact hx)
      simpa [specStep, hx, this] using push_none_rel h
    | some v =>
      have h1 := push_rel h v
      have hx' : (A ++ [some v])[j]? = some (some v) := by rw [List.getElem?_append_left hj]; exact hx
      have h2 := moved_rel mv h1 j v hx'
      obtain ⟨w', h3, h4⟩ := reset_rel _ _ h2 j (by simp; omega)
      refine ⟨w', ?_, ?_⟩
      · simp [step, obj_rel h, hx, enc, specStep]; exact h3
      · simpa [specStep, hx] using h4
  | emplace i v =>
    have hi : i < A.length := ha
    obtain ⟨w1, h1, h2⟩ := reset_rel A w h i hi
    obtain ⟨w2, h3, h4⟩ := construct_rel h2 i (by simp [hi]) v
    exact ⟨w2, by simp [step, h1, h3, specStep], by simpa [specStep] using h4⟩
  | emplaceRef i j =>
    obtain ⟨hi, hij, hj⟩ := ha
    obtain ⟨v, hv⟩ := some_of_join hj
    obtain ⟨w1, h1, h2⟩ := reset_rel A w h i hi
    obtain ⟨w2, h3, h4⟩ := construct_rel h2 i (by simp [hi]) v
    have e1 : value w j = some v := by rw [value_rel h, hv]; rfl
    have e2 : value w1 j = some v := by rw [value_rel h2, List.getElem?_set_ne hij, hv]; rfl
    exact ⟨w2, by simp [step, h1, h3, e1, e2, specStep], by simpa [specStep, hv] using h4⟩
  | reset i =>
    obtain ⟨w1, h1, h2⟩ := reset_rel A w h i ha
    exact ⟨w1, by simp [step, h1, specStep], h2⟩
  | assignVal i v =>
    obtain ⟨w1, h1, h2⟩ := assignVal_rel h i ha v none (by simp)
    exact ⟨w1, by simp [step, h1, specStep], h2⟩
  | assignRef i j =>
    obtain ⟨v, hv⟩ := some_of_join ha.2
    obtain ⟨w1, h1, h2⟩ := assignVal_rel h i ha.1 v (some j) (by intro j' e; cases e; exact hv)
    have e1 : value w j = some v := by rw [value_rel h, hv]; rfl
    exact ⟨w1, by simp [step, h1, e1, specStep], by simpa [specStep, hv] using h2⟩
  | assignMoveRef i j =>
    obtain ⟨v, hv⟩ := some_of_join ha.2
    obtain ⟨w1, h1, h2⟩ := assignMoveVal_rel mv h i ha.1 v j hv
    have e1 : value w j = some v := by rw [value_rel h, hv]; rfl
    exact ⟨w1, by simp [step, h1, e1, specStep], by simpa [specStep, hv] using h2⟩
  | assign i j =>
    obtain ⟨x, hx⟩ := get_of_lt ha.2
    cases x with
    | none =>
      obtain ⟨w1, h1, h2⟩ := reset_rel A w h i ha.1
      exact ⟨w1, by simp [step, obj_rel h, hx, enc, h1, specStep], by simpa [specStep, hx] using h2⟩
    | some v =>
      obtain ⟨w1, h1, h2⟩ := assignVal_rel h i ha.1 v (some j) (by intro j' e; cases e; exact hx)
      have e1 : value w j = some v := by rw [value_rel h, hx]; rfl
      exact ⟨w1, by simp [step, obj_rel h, hx, enc, h1, e1, specStep], by simpa [specStep, hx] using h2⟩
  | assignMove i j =>
    by_cases hij : i = j
    · subst hij
      exact ⟨w, by simp [step, specStep], by simpa [specStep] using h⟩
    obtain ⟨x, hx⟩ := get_of_lt ha.2
    cases x with
    | none =>
      obtain ⟨w1, h1, h2⟩ := reset_rel A w h i ha.1
      refine ⟨w1, by simp [step, hij, obj_rel h, hx, enc, h1, specStep], ?_⟩
      have : (A.set i none).set j none = A.set i none := set_same (by rw [List.getElem?_set_ne hij]; exact hx)
      simpa [specStep, hx, hij, this] using h2
    | some v =>
      obtain ⟨w1, h1, h2⟩ := assignMoveVal_rel mv h i ha.1 v j hx
      rw [if_neg hij] at h2
      obtain ⟨w2, h3, h4⟩ := reset_rel _ _ h2 j (by simp; exact ha.2)
      have e1 : value w j = some v := by rw [value_rel h, hx]; rfl
      exact ⟨w2, by simp [step, hij, obj_rel h, hx, enc, h1, e1, h3, specStep], by simpa [specStep, hx, hij] using h4⟩
  | get i =>
    obtain ⟨v, hv⟩ := some_of_join ha
    have e1 : value w i = some v := by rw [value_rel h, hv]; rfl
    exact ⟨w, by simp [step, e1, specStep, hv], h⟩
  | hasValue i =>
    obtain ⟨x, hx⟩ := get_of_lt ha
    exact ⟨w, by simp [step, obj_rel h, hx, enc, specStep], h⟩
  | eq i j =>
    obtain ⟨x, hx⟩ := get_of_lt ha.1
    obtain ⟨y, hy⟩ := get_of_lt ha.2
    exact ⟨w, by cases x <;> cases y <;> simp [step, obj_rel h, value_rel h, hx, hy, enc, specStep], h⟩
  | ne i j =>
    obtain ⟨x, hx⟩ := get_of_lt ha.1
    obtain ⟨y, hy⟩ := get_of_lt ha.2
    exact ⟨w, by cases x <;> cases y <;> simp [step, obj_rel h, value_rel h, hx, hy, enc, specStep], h⟩

theorem run_rel (mv : V → V) (ops : List (Op V)) : ∀ {A : Abs V} {w : World V}, Rel A w → AllowedRun mv A ops →
    ∃ w', run mv w ops = some (w', (specRun mv A ops).2) ∧ Rel (specRun mv A ops).1 w' := by
  induction ops with
  | nil => intro A w h _; exact ⟨w, rfl, h⟩
  | cons op ops ih =>
    intro A w h ha
    obtain ⟨w1, h1, h2⟩ := step_rel mv h op ha.1
    obtain ⟨w2, h3, h4⟩ := ih h2 ha.2
    exact ⟨w2, by simp [run, h1, h3, specRun], by simpa [specRun] using h4⟩

/-- C26. Every history of Optional calls (within the caller obligations `Allowed`) runs without undefined behaviour, every call returns what the mathematical optional values say,
and afterwards the values made minus the values destroyed are exactly the Optionals that report a value; reading any Optional gives its mathematical value. -/
theorem C26_history (mv : V → V) (ops : List (Op V)) (ha : AllowedRun mv [] ops) :
    ∃ w, run mv {} ops = some (w, (specRun mv [] ops).2) ∧ w.made = w.killed + withValue (specRun mv [] ops).1 ∧
      w.objs.length = (specRun mv [] ops).1.length ∧
      ∀ i, value w i = (specRun mv [] ops).1[i]?.join ∧ (w.objs[i]?).map Obj.has = (specRun mv [] ops).1[i]?.map Option.isSome := by
  obtain ⟨w, h1, h2⟩ := run_rel mv ops (A := []) (w := {}) ⟨0, 0, rfl, rfl⟩ ha
  refine ⟨w, h1, ?_, ?_, ?_⟩
  · obtain ⟨m, k, rfl, hb⟩ := h2; rw [withValue_eq]; exact hb
  · obtain ⟨m, k, rfl, hb⟩ := h2; simp [world]
  · intro i
    refine ⟨value_rel h2 i, ?_⟩
    rw [obj_rel h2, Option.map_map]; rfl

/-- non-vacuity: construct, copy, move, self-assign, assign through a reference, emplace, compare -/
example : AllowedRun (fun _ : Nat => 0) [] [.newVal 5, .newCopy 0, .newMove 0, .newEmpty, .assign 1 1, .assignMove 3 1, .assignMoveRef 1 2, .emplaceRef 3 2, .eq 1 2, .assign 3 0] ∧
    (specRun (fun _ : Nat => 0) [] [.newVal 5, .newCopy 0, .newMove 0, .newEmpty, .assign 1 1, .assignMove 3 1, .assignMoveRef 1 2, .emplaceRef 3 2, .eq 1 2, .assign 3 0]).1 =
      [none, some 5, some 0, none] := by
  refine ⟨?_, by decide⟩
  simp [AllowedRun, Allowed, specStep]

/-- Outside the obligations: `o.Emplace(o.GetValue())` reads the value after destroying it. -/
theorem C26_emplace_own_value (mv : V → V) (v : V) : run mv {} [.newVal v, .emplaceRef 0 0] = none := by
  simp [run, step, World.push, value, reset, World.set]

#print axioms C26_history
#print axioms C26_emplace_own_value
end Verif.Optional
