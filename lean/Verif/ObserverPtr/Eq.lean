import Verif.ObserverPtr.Props
/-!
# C29 – the comparison operators of `ObserverPtr`
-/
namespace Verif.ObserverPtr

/-- `operator==(const _Type*)` 178-181, with `GetRawPtr` 223-226: compares the stored address and does not ask whether the object still lives.
`none` is the null pointer.  Objects are numbered, so an address that is used again for a new object is a different number here. -/
def eqPtr (w : World) (i : Nat) (p : Option Nat) : Bool :=
  match w.obs[i]? with
  | none => false
  | some x => x.ptr == p

/-- `operator!=(const _Type*)` 188-191 -/
def nePtr (w : World) (i : Nat) (p : Option Nat) : Bool :=
  match w.obs[i]? with
  | none => false
  | some x => x.ptr != p

/-- `operator==(const ObserverPtr&)` 183-186: compares the blocks -/
def eqObs (w : World) (i j : Nat) : Bool :=
  match w.obs[i]?, w.obs[j]? with
  | some x, some y => x.data == y.data
  | _, _ => false

/-- `operator!=(const ObserverPtr&)` 193-196 -/
def neObs (w : World) (i j : Nat) : Bool :=
  match w.obs[i]?, w.obs[j]? with
  | some x, some y => x.data != y.data
  | _, _ => false

/-- **C29 (partial), two observers.** After every benign history two observers compare equal exactly when they designate the same object, alive
or not, or both none; `!=` is the opposite; and observers that compare equal report the same thing.  Missing: observer-to-observer assignment
(`C29_eq_assign_fails`). -/
theorem C29_eq_observers_partial (ops : List Op) (hv : AllRun Valid {} ops) (hb : AllRun Benign {} ops) :
    ∃ w, run {} ops = some (w, (specRun {} ops).2) ∧
      ∀ i j, i < (specRun {} ops).1.target.length → j < (specRun {} ops).1.target.length →
        (eqObs w i j = true ↔ (specRun {} ops).1.target[i]? = (specRun {} ops).1.target[j]?) ∧
        neObs w i j = !(eqObs w i j) ∧
        (eqObs w i j = true → get w i = get w j) := by
  obtain ⟨own, w, h1, r⟩ := run_rel ops rel_init hv hb
  refine ⟨w, h1, fun i j hi hj => ?_⟩
  rw [← r.lenP] at hi hj
  obtain ⟨x, hx⟩ : ∃ x, w.obs[i]? = some x := ⟨_, List.getElem?_eq_getElem hi⟩
  obtain ⟨y, hy⟩ : ∃ y, w.obs[j]? = some y := ⟨_, List.getElem?_eq_getElem hj⟩
  refine ⟨?_, by simp only [eqObs, neObs, hx, hy]; rfl, fun he => ?_⟩
  · simp only [eqObs, hx, hy, beq_iff_eq]
    cases hd : x.data with
    | none =>
      rw [r.obsN i x hx hd]
      cases he : y.data with
      | none => rw [r.obsN j y hy he]; simp
      | some e =>
        obtain ⟨o, _, _, ht⟩ := r.obsD j y hy e he
        rw [ht]; simp
    | some d =>
      obtain ⟨o, ho, _, ht⟩ := r.obsD i x hx d hd
      rw [ht]
      cases he : y.data with
      | none => rw [r.obsN j y hy he]; simp
      | some e =>
        obtain ⟨o', ho', _, ht'⟩ := r.obsD j y hy e he
        rw [ht']
        constructor
        · intro h
          injection h with h
          subst h
          rw [ho] at ho'
          injection ho' with h
          rw [h]
        · intro h
          injection h with h
          injection h with h
          subst h
          rw [r.inj d e o ho ho']
  · simp only [eqObs, hx, hy, beq_iff_eq] at he
    simp only [get, hx, hy]
    cases hd : x.data with
    | none => rw [hd] at he; rw [← he]
    | some d =>
      rw [hd] at he
      rw [← he]
      obtain ⟨o, ho, hp, _⟩ := r.obsD i x hx d hd
      obtain ⟨o', ho', hp', _⟩ := r.obsD j y hy d he.symm
      rw [ho] at ho'
      injection ho' with h
      rw [hp, hp', h]

/-- **C29 (partial), comparison with a pointer.** As long as an observer designates something, `==` with a non-null pointer says whether that is
the object designated, whether or not it still lives; `!=` is always the opposite of `==`.  Missing: null, and observers that were reset
(`C29_eq_null_fails`, `C29_eq_reset_fails`). -/
theorem C29_eq_pointer_partial (ops : List Op) (hv : AllRun Valid {} ops) (hb : AllRun Benign {} ops) :
    ∃ w, run {} ops = some (w, (specRun {} ops).2) ∧
      ∀ i t, (specRun {} ops).1.target[i]? = some t → (∀ p, nePtr w i p = !(eqPtr w i p)) ∧
        ∀ o, t = some o → ∀ p, (eqPtr w i p = true ↔ p = some o) := by
  obtain ⟨own, w, h1, r⟩ := run_rel ops rel_init hv hb
  refine ⟨w, h1, fun i t ht => ?_⟩
  have hi : i < w.obs.length := by rw [r.lenP]; exact (List.getElem?_eq_some_iff.1 ht).1
  obtain ⟨x, hx⟩ : ∃ x, w.obs[i]? = some x := ⟨_, List.getElem?_eq_getElem hi⟩
  refine ⟨fun p => by simp only [eqPtr, nePtr, hx]; rfl, fun o e p => ?_⟩
  subst e
  simp only [eqPtr, hx, beq_iff_eq]
  cases hd : x.data with
  | none => have := r.obsN i x hx hd; rw [ht] at this; simp at this
  | some d =>
    obtain ⟨o', _, hp, ht'⟩ := r.obsD i x hx d hd
    rw [ht] at ht'
    injection ht' with h
    rw [hp, ← h]
    exact eq_comm

/-- **C29 fails: `p == nullptr` does not detect expiry.** After every benign history an observer of an object that was destroyed reports
`Get() == nullptr` and `IsExpired()`, but `p == nullptr` is false and `p != nullptr` true. -/
theorem C29_eq_null_fails (ops : List Op) (hv : AllRun Valid {} ops) (hb : AllRun Benign {} ops) (i o : Nat)
    (ht : (specRun {} ops).1.target[i]? = some (some o)) (hd : (specRun {} ops).1.alive[o]? = some false) :
    ∃ w, run {} ops = some (w, (specRun {} ops).2) ∧ get w i = some none ∧ eqPtr w i none = false ∧ nePtr w i none = true := by
  obtain ⟨own, w, h1, r⟩ := run_rel ops rel_init hv hb
  obtain ⟨w', h2, h3⟩ := C29_eq_pointer_partial ops hv hb
  have : w' = w := by
    have h := h1.symm.trans h2
    have h' := congrArg (Option.map Prod.fst) h
    simpa using h'.symm
  subst this
  obtain ⟨hne, heq⟩ := h3 i _ ht
  have e0 : eqPtr w' i none = false := by
    have := (heq o rfl none).1
    cases hq : eqPtr w' i none with
    | false => rfl
    | true => have := this hq; cases this
  refine ⟨w', h1, ?_, e0, by rw [hne, e0]; rfl⟩
  have hi : i < w'.obs.length := by rw [r.lenP]; exact (List.getElem?_eq_some_iff.1 ht).1
  obtain ⟨own2, w2, x2, s1, s2, _⟩ := step_rel r (.get i) (by simp only [Valid]; rw [← r.lenP]; exact hi) trivial
  subst s2
  simp only [step, specStep, Abs.seen, ht, hd] at s1
  cases hg : get w' i with
  | none => rw [hg] at s1; simp at s1
  | some g =>
    rw [hg] at s1
    simp at s1
    rw [s1.2]

/-- `p = nullptr` (`Reset()` 145-148 keeps the address): `p` then still compares equal to the object, and unequal to null and to a fresh observer's
null pointer, although it observes nothing. -/
theorem C29_eq_reset_fails :
    (run {} [.newObj, .new (some 0), .reset 0]).map (fun x => (eqPtr x.1 0 (some 0), eqPtr x.1 0 none, get x.1 0)) = some (true, false, some none) := by
  decide

/-- after `b = a` the two compare equal but designate different objects -/
theorem C29_eq_assign_fails :
    (run {} [.newObj, .newObj, .new (some 0), .new (some 1), .assign 1 0]).map (fun x => (eqObs x.1 1 0, get x.1 0, get x.1 1))
      = some (true, some (some 0), some (some 1)) := by decide

/-- histories meeting the hypotheses: two observers of one destroyed object, one of another, one null -/
def eqDemo : List Op := [.newObj, .newObj, .new (some 0), .copy 0, .new (some 1), .new none, .destroyObj 0]

example : AllRun Valid {} eqDemo ∧ AllRun Benign {} eqDemo ∧ (specRun {} eqDemo).1.target[0]? = some (some 0) ∧
    (specRun {} eqDemo).1.alive[0]? = some false := by
  simp [eqDemo, AllRun, Valid, Benign, specStep, specRun]
example : (run {} eqDemo).map (fun x => [eqObs x.1 0 1, eqObs x.1 0 2, eqObs x.1 3 3, eqPtr x.1 2 (some 1), eqPtr x.1 0 none])
    = some [true, false, true, true, false] := by decide

#print axioms C29_eq_observers_partial
#print axioms C29_eq_pointer_partial
#print axioms C29_eq_null_fails

end Verif.ObserverPtr
