import Verif.RefGraph.Props
/-! C107: concrete programs. -/
namespace Verif.RefGraph

/-- decides `Denotes` -/
def denotes (s : St) : Slot → Bool
  | .var i => decide (i < s.vars.length)
  | .field i k => match s.vars[i]? with
    | some (some o) => match s.objs[o]? with
      | some b => decide (k < b.fields.length)
      | none => false
    | _ => false

theorem denotes_spec {s d} (h : denotes s d = true) : Denotes s d := by
  cases d with
  | var i => exact (of_decide_eq_true (p := i < s.vars.length) h :)
  | field i k =>
    simp only [denotes] at h
    split at h
    · rename_i o ho
      split at h
      · rename_i b hb
        exact ⟨o, b, ho, hb, by simpa using h⟩
      · cases h
    · cases h

def valid (s : St) : Op → Bool
  | .create d _ => denotes s d
  | .copy d t => denotes s d && denotes s t
  | .move d t => denotes s d && denotes s t
  | .clear d => denotes s d

theorem valid_spec {s q} (h : valid s q = true) : Valid s q := by
  cases q with
  | create d c => exact denotes_spec h
  | copy d t =>
    simp only [valid, Bool.and_eq_true] at h
    exact ⟨denotes_spec h.1, denotes_spec h.2⟩
  | move d t =>
    simp only [valid, Bool.and_eq_true] at h
    exact ⟨denotes_spec h.1, denotes_spec h.2⟩
  | clear d => exact denotes_spec h

/-- run the steps until the operation ends -/
def finish (E : Nat → Cls) : Nat → St → St
  | 0, s => s
  | k + 1, s => if s.stack = [] then s else finish E k (s.micro E)

theorem finish_steps {E} : ∀ (k : Nat) (s : St), Steps E s (finish E k s)
  | 0, s => .refl s
  | k + 1, s => by
    unfold finish
    split
    · exact .refl s
    · rename_i h
      exact steps_trans (.tail (.refl s) (.micro s h)) (finish_steps k _)

/-- a program: operations, each carried through -/
def prog (E : Nat → Cls) : List Op → St → Option St
  | [], s => some s
  | q :: qs, s => if s.stack = [] ∧ valid s q = true then prog E qs (finish E 50 (s.doOp E q)) else none

theorem prog_steps {E} : ∀ (qs : List Op) {s s' : St}, prog E qs s = some s' → Steps E s s'
  | [], s, s', h => by injection h with h; subst h; exact .refl s
  | q :: qs, s, s', h => by
    unfold prog at h
    split at h
    · rename_i hv
      exact steps_trans (steps_trans (.tail (.refl s) (.op s q hv.1 (valid_spec hv.2))) (finish_steps 50 _)) (prog_steps qs h)
    · cases h

/-- `a->next = b; b->next = a; a = nullptr; b = nullptr;` -/
def ring : List Op :=
  [.create (.var 0) 0, .create (.var 1) 0, .copy (.field 0 0) (.var 1), .copy (.field 1 0) (.var 0), .clear (.var 0), .clear (.var 1)]

def ringEnd : St :=
  { objs := [{ cls := 0, ref := 1, fields := [some 1], left := 1 }, { cls := 0, ref := 1, fields := [some 0], left := 1 }], vars := [none, none] }

theorem ring_reach : Reach node 2 ringEnd := prog_steps ring (by decide +kernel)

theorem ring_unreachable (o) : ¬ Reachable ringEnd o := by
  intro h
  induction h with
  | @var i o h =>
    match i, h with
    | 0, h => cases h
    | 1, h => cases h
    | i + 2, h => simp [ringEnd] at h
  | field _ _ _ ih => exact ih

/-- **C107, negated for cycles.** Two objects that hold each other, the variables reset: both are alive, nobody reaches them, and no continuation
destroys them (`C107_leak_fails`). -/
theorem C107_ring_fails : Plain node ∧ Reach node 2 ringEnd ∧ ringEnd.stack = [] ∧ (∀ o, ¬ Reachable ringEnd o) ∧ Alive ringEnd 0 ∧ Alive ringEnd 1 ∧
    ∀ s', Steps node ringEnd s' → Alive s' 0 ∧ Alive s' 1 := by
  have a0 : Alive ringEnd 0 := ⟨_, rfl, by decide⟩
  have a1 : Alive ringEnd 1 := ⟨_, rfl, by decide⟩
  exact ⟨fun _ => rfl, ring_reach, rfl, ring_unreachable, a0, a1, fun s' h =>
    ⟨(C107_leak_fails (fun _ => rfl) ring_reach rfl a0 (ring_unreachable 0) h).1, (C107_leak_fails (fun _ => rfl) ring_reach rfl a1 (ring_unreachable 1) h).1⟩⟩

/-- a class whose destructor reads the variable that is being reset (`copy = current;`) -/
def nosy : Nat → Cls := fun _ => { nfields := 0, dtor := [.copy (.var 1) (.var 0)] }

/-- **C107, negated for destructors with a body.** `Attach` (RefPtr.h 181-186) releases before it overwrites `p`, so a destructor that reads
the variable being reset finds the pointer to its own object there and takes a new reference to it. -/
theorem C107_reenter_fails : ∃ s, Reach nosy 2 s ∧ s.ub = true :=
  ⟨_, steps_trans (prog_steps [.create (.var 0) 0] (s' := { objs := [{ cls := 0, fields := [], left := 0 }], vars := [some 0, none] }) (by decide +kernel))
    (steps_trans (.tail (.refl _) (.op _ (.clear (.var 0)) rfl (by simp [Valid, Denotes]))) (finish_steps 2 _)), by decide +kernel⟩

/-- Example: `head = head->next` on a list of three nodes, twice, with the old head kept in another variable the first time: the second
assignment releases the middle node but keeps it, since node 2 holds it; when the variable is reset both are destroyed, in the order of the list. -/
theorem C107_example :
    (prog node [.copy (.var 1) (.var 0), .copy (.var 0) (.field 0 0), .copy (.var 0) (.field 0 0)] (chain 3)).map (fun s => (s.vars, s.objs.map Obj.ref, s.destroyed)) =
      some ([some 0, some 2], [2, 1, 1], []) ∧
    (prog node [.copy (.var 1) (.var 0), .copy (.var 0) (.field 0 0), .copy (.var 0) (.field 0 0), .clear (.var 1)] (chain 3)).map (fun s => (s.vars, s.objs.map Obj.ref, s.destroyed)) =
      some ([some 0, none], [1, 0, 0], [2, 1]) ∧
    (prog node [.copy (.var 0) (.field 0 0)] (chain 3)).map (fun s => (s.vars, s.destroyed)) = some ([some 1, none], [2]) ∧
    (prog node [.move (.field 0 0) (.var 0)] (chain 1)).map (fun s => (s.vars, s.objs.map Obj.fields)) = some ([none, none], [[some 0]]) := by
  decide +kernel

/-- the hypotheses of the positive theorems hold for `chain 3`: it is acyclic -/
theorem C107_chain_acyclic (n c) : ¬ Path (chain n) c c := by
  have hown : ∀ a b, Owns (chain n) a b → b < a := by
    rintro a b ⟨x, hx, -, hm⟩
    have hx' : ((List.range n).map cell)[a]? = some x := hx
    rw [List.getElem?_map] at hx'
    cases hr : (List.range n)[a]? with
    | none => simp [hr] at hx'
    | some z =>
      have hz : z = a := by
        have := List.getElem?_eq_some_iff.mp hr
        obtain ⟨h1, h2⟩ := this
        simp at h2
        exact h2.symm
      subst hz
      rw [hr] at hx'
      injection hx' with hx'
      subst hx'
      cases z with
      | zero => simp [cell, prev] at hm
      | succ k => simp [cell, prev] at hm; omega
  have hlt : ∀ a b, Path (chain n) a b → b < a := by
    intro a b h
    induction h with
    | one h => exact hown _ _ h
    | cons h _ ih => have := hown _ _ h; omega
  intro h
  have := hlt _ _ h
  omega

end Verif.RefGraph
