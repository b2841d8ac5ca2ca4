import Verif.RefGraph.Leak
/-! C107: objects that own objects through `RefPtr` members. -/
namespace Verif.RefGraph
open Verif.Common

/-- **C107** (destructors without a body of their own; `C107_reenter_fails` is the reason for the restriction). Whatever sequence of creations,
copies, moves and resets of variables and members a program runs, and at every moment inside it, no destroyed object is used, each object is
destroyed at most once and exactly those that are not alive were; between two operations the count of every object is the number of
`RefPtr` that hold it. -/
theorem C107_counts_partial {E n s} (hE : Plain E) (h : Reach E n s) :
    s.ub = false ∧ s.destroyed.Nodup ∧ (∀ o, o ∈ s.destroyed ↔ o < s.objs.length ∧ ¬ Alive s o) ∧
    (s.stack = [] → ∀ o b, s.objs[o]? = some b → b.ref = holders s o) := by
  have hI := inv_reach hE h
  refine ⟨hI.ub, hI.nd, ?_, ?_⟩
  · intro o
    rw [hI.dst o]
    refine and_congr_right fun ho => ?_
    have hb : s.objs[o]? = some s.objs[o] := List.getElem?_eq_getElem ho
    rw [refOf_some hb]
    constructor
    · rintro h0 ⟨c, hc, hc0⟩
      rw [hb] at hc
      injection hc with hc
      exact hc0 (hc ▸ h0)
    · intro hn
      exact Classical.byContradiction fun h0 => hn ⟨_, hb, h0⟩
  · intro hs o b hb
    rw [← quiet_holders hI hs o, refOf_some hb]

/-- Between two operations nothing a variable reaches is destroyed. -/
theorem C107_reachable_partial {E n s} (hE : Plain E) (h : Reach E n s) (hs : s.stack = []) {o} (hr : Reachable s o) : Alive s o :=
  reach_alive (inv_reach hE h) hs hr

/-- Also inside an operation, while destructors run, every variable holds a live object, except for the one that is assigned. -/
theorem C107_during_partial {E n s} (hE : Plain E) (h : Reach E n s) {i o : Nat} (hv : s.vars[i]? = some (some o)) :
    Alive s o ∨ ∃ p, Task.store (.var i) p ∈ s.stack := by
  have hI := inv_reach hE h
  rcases hI.shape with hs | ⟨ts, l, p, hs⟩
  · exact .inl (alive_of_var hI hs hv)
  · by_cases hl : l = .var i
    · refine .inr ⟨p, ?_⟩
      rw [hs.eq, hl]; simp
    · left
      have h1 := hI.cnt o
      rw [hole_shape hs] at h1
      have h2 : one o (s.raw l).join + 1 ≤ pts o s.vars + sumBy (cF o) s.objs := by
        cases l with
        | var j =>
          have hij : i ≠ j := fun e => hl (by rw [e])
          have hj : j < s.vars.length := hs.ok
          have h3 := add_le_sumBy (one o) s.vars i j _ _ hij hv (List.getElem?_eq_getElem hj)
          simp only [St.raw]
          rw [List.getElem?_eq_getElem hj, Option.join_some]
          rw [one_self] at h3
          rw [pts_eq]
          omega
        | fld q k =>
          obtain ⟨⟨b, hb, hb1, -⟩, -⟩ := hs.ok
          have h3 := le_cF hI (k := k) hb hb1 o
          have h4 := pts_ge hv
          simp only [St.raw, hb]
          omega
      obtain ⟨b, hb, hbr⟩ := of_ref_pos (s := s) (o := o) (by omega)
      exact ⟨b, hb, by omega⟩

/-- The only leaks are cycles: a live object nobody reaches hangs on a cycle of such objects. -/
theorem C107_leak_cycle_partial {E n s} (hE : Plain E) (h : Reach E n s) (hs : s.stack = []) {o} (ha : Alive s o) (hn : ¬ Reachable s o) :
    ∃ c, (Alive s c ∧ ¬ Reachable s c) ∧ Path s c c ∧ (c = o ∨ Path s c o) :=
  leak_cycle (inv_reach hE h) hs ha hn

/-- So without cycles the live objects are exactly the reachable ones: all others were destroyed. -/
theorem C107_acyclic_partial {E n s} (hE : Plain E) (h : Reach E n s) (hs : s.stack = []) (hc : ∀ c, ¬ Path s c c) (o) :
    Alive s o ↔ Reachable s o := by
  constructor
  · intro ha
    refine Classical.byContradiction fun hn => ?_
    obtain ⟨c, -, h1, -⟩ := leak_cycle (inv_reach hE h) hs ha hn
    exact hc c h1
  · exact reach_alive (inv_reach hE h) hs

/-- Every operation ends, the nested destructors included. -/
theorem C107_terminates_partial {E n s} (hE : Plain E) (h : Reach E n s) : ∃ k, (run E k s).stack = [] ∧ Reach E n (run E k s) := by
  obtain ⟨k, -, hk⟩ := terminates hE (mu s) (inv_reach hE h) (Nat.le_refl _)
  exact ⟨k, hk, steps_trans h (run_steps k s)⟩

/-- The leak is for ever: a live object nobody reaches is destroyed in no continuation of the program. -/
theorem C107_leak_fails {E n s s'} (hE : Plain E) (h : Reach E n s) (hs : s.stack = []) {o} (ha : Alive s o) (hn : ¬ Reachable s o)
    (h2 : Steps E s s') : Alive s' o ∧ o ∉ s'.destroyed := by
  have hI := inv_reach hE h
  have hk := keep_steps hE hI (keep_init hI hs) h2
  obtain ⟨b, hb, hb0⟩ := ha
  have h3 := hk.same o ⟨⟨b, hb, hb0⟩, hn⟩
  rw [hb] at h3
  refine ⟨⟨b, h3, hb0⟩, fun hd => ?_⟩
  have := ((inv_steps hE hI h2).dst o).1 hd
  rw [refOf_some h3] at this
  exact hb0 this.2

/-! ### Depth -/

/-- how many destructors are running, one inside the other -/
def depth (s : St) : Nat := sumBy (fun t => match t with | .fields _ => 1 | _ => 0) s.stack

/-- list nodes: one member -/
def node : Nat → Cls := fun _ => { nfields := 1 }

def prev : Nat → Option Nat
  | 0 => none
  | k + 1 => some k

def cell (k : Nat) : Obj := { cls := 0, ref := 1, fields := [prev k], left := 1 }

/-- a singly linked list of `n` nodes; variable 0 holds its head -/
def chain (n : Nat) : St := { objs := (List.range n).map cell, vars := [prev n, none] }

theorem chain_len (n) : (chain n).objs.length = n := by simp [chain]

theorem chain_grow (n) : Steps node (chain n) (chain (n + 1)) := by
  let s1 : St := { objs := (List.range n).map cell ++ [{ cls := 0, fields := [none], left := 1 }], vars := [prev n, none], stack := [.store (.var 1) (some n)] }
  let s2 : St := { s1 with vars := [prev n, some n], stack := [] }
  let s3 : St := { s2 with vars := [none, some n], stack := [.store (.fld n 0) (prev n)] }
  let s4 : St := { objs := (List.range (n + 1)).map cell, vars := [none, some n], stack := [] }
  let s5 : St := { s4 with vars := [none, none], stack := [.store (.var 0) (some n)] }
  have e1 : Step node (chain n) s1 := by
    have : (chain n).doOp node (.create (.var 1) 0) = s1 := by
      simp [St.doOp, St.start, St.resolve, chain, St.attach, St.read, relOpt, node, s1]
    rw [← this]
    exact .op _ _ rfl (by simp [Valid, Denotes, chain])
  have e2 : Step node s1 s2 := by
    have : s1.micro node = s2 := by simp [St.micro, St.exec, St.write, s1, s2]
    rw [← this]
    exact .micro _ (by simp [s1])
  have hn : s2.objs[n]? = some { cls := 0, fields := [none], left := 1 } := by
    show ((List.range n).map cell ++ [_])[n]? = _
    rw [List.getElem?_append_right (by simp)]
    simp
  have e3 : Step node s2 s3 := by
    have : s2.doOp node (.move (.field 1 0) (.var 0)) = s3 := by
      have hn' : ((List.range n).map cell ++ [({ cls := 0, fields := [none], left := 1 } : Obj)])[n]? = some { cls := 0, fields := [none], left := 1 } := hn
      simp [St.doOp, St.start, St.resolve, St.attach, St.read, St.write, relOpt, s1, s2, s3, hn']
    rw [← this]
    refine .op _ _ rfl ⟨⟨n, _, rfl, hn, by simp⟩, ?_⟩
    simp [Denotes, s2]
  have e4 : Step node s3 s4 := by
    have : s3.micro node = s4 := by
      have hn' : ((List.range n).map cell ++ [({ cls := 0, fields := [none], left := 1 } : Obj)])[n]? = some { cls := 0, fields := [none], left := 1 } := hn
      have hset : ((List.range n).map cell ++ [({ cls := 0, fields := [none], left := 1 } : Obj)]).set n
          { cls := 0, fields := [prev n], left := 1 } = (List.range (n + 1)).map cell := by
        rw [List.set_append_right _ _ (by simp), List.range_succ]
        simp [cell]
      simp [St.micro, St.exec, St.write, s1, s2, s3, s4, hn', hset]
    rw [← this]
    exact .micro _ (by simp [s3])
  have e5 : Step node s4 s5 := by
    have : s4.doOp node (.move (.var 0) (.var 1)) = s5 := by
      simp [St.doOp, St.start, St.resolve, St.attach, St.read, St.write, relOpt, s4, s5]
    rw [← this]
    exact .op _ _ rfl (by simp [Valid, Denotes, s4])
  have e6 : Step node s5 (chain (n + 1)) := by
    have : s5.micro node = chain (n + 1) := by simp [St.micro, St.exec, St.write, s4, s5, chain, prev]
    rw [← this]
    exact .micro _ (by simp [s5])
  exact .tail (.tail (.tail (.tail (.tail (.tail (.refl _) e1) e2) e3) e4) e5) e6

theorem chain_reach : ∀ n, Reach node 2 (chain n)
  | 0 => .refl _
  | n + 1 => steps_trans (chain_reach n) (chain_grow n)

/-- From `rel (m + 1)` on, with the nodes up to `m + 1` still alive, the next node is released inside the destructor. -/
theorem descend {s : St} {m : Nat} {rest} (hs : s.stack = .rel (m + 1) :: rest) (hb : s.objs[m + 1]? = some (cell (m + 1))) :
    ∃ s', Steps node s s' ∧ s'.stack = .rel m :: .fields (m + 1) :: rest ∧ ∀ k, k ≠ m + 1 → s'.objs[k]? = s.objs[k]? := by
  have hlt := lt_of_get hb
  let s1 : St := { s with objs := s.objs.set (m + 1) { cell (m + 1) with ref := 0 }, destroyed := s.destroyed ++ [m + 1], stack := .fields (m + 1) :: rest }
  have h1 : s.micro node = s1 := by
    have hc : (cell (m + 1)).ref = 1 := rfl
    unfold St.micro
    rw [hs]
    simp only [St.exec, hb]
    rw [if_neg (by omega), if_pos hc]
    simp [s1, node]
  have hg : s1.objs[m + 1]? = some { cell (m + 1) with ref := 0 } := by
    show (s.objs.set (m + 1) _)[m + 1]? = _
    rw [get_set hlt, if_pos rfl]
  have h2 : s1.micro node = { s1 with objs := s1.objs.set (m + 1) { cell (m + 1) with ref := 0, left := 0 }, stack := .rel m :: .fields (m + 1) :: rest } := by
    unfold St.micro
    have : s1.stack = .fields (m + 1) :: rest := rfl
    rw [this]
    simp only [St.exec, hg]
    rfl
  have e1 : Step node s (s.micro node) := .micro s (by rw [hs]; simp)
  rw [h1] at e1
  have e2 : Step node s1 (s1.micro node) := .micro s1 (by show Task.fields (m + 1) :: rest ≠ []; simp)
  rw [h2] at e2
  refine ⟨_, .tail (.tail (.refl _) e1) e2, rfl, ?_⟩
  intro k hk
  show ((s.objs.set (m + 1) _).set (m + 1) _)[k]? = _
  rw [List.getElem?_set_ne (by omega), List.getElem?_set_ne (by omega)]

theorem descend_all : ∀ (m : Nat) (s : St), (∃ rest, s.stack = .rel m :: rest) → (∀ k, k ≤ m → s.objs[k]? = some (cell k)) →
    ∃ s', Steps node s s' ∧ depth s' = depth s + m
  | 0, s, _, _ => ⟨s, .refl s, rfl⟩
  | m + 1, s, ⟨rest, hs⟩, hc => by
    obtain ⟨s1, h1, h2, h3⟩ := descend hs (hc (m + 1) (Nat.le_refl _))
    obtain ⟨s2, h4, h5⟩ := descend_all m s1 ⟨_, h2⟩ (fun k hk => by rw [h3 k (by omega)]; exact hc k (by omega))
    refine ⟨s2, steps_trans h1 h4, ?_⟩
    rw [h5]
    unfold depth
    rw [h2, hs]
    simp only [sumBy_cons]
    omega

theorem chain_clear (n) : Step node (chain (n + 1)) { chain (n + 1) with stack := [.rel n, .store (.var 0) none] } := by
  have h1 : (chain (n + 1)).doOp node (.clear (.var 0)) = { chain (n + 1) with stack := [.rel n, .store (.var 0) none] } := by
    simp [St.doOp, St.start, St.resolve, chain, St.attach, St.read, relOpt, prev]
  rw [← h1]
  exact .op _ _ rfl (by simp [Valid, Denotes, chain])

/-- **C107, negated for the depth of the nesting.** Dropping the head of a list of `n + 1` nodes runs `n` destructors one inside the other: for
every stack size there is a list whose release overflows it. -/
theorem C107_depth_fails (n : Nat) : Plain node ∧ ∃ s, Reach node 2 s ∧ depth s = n := by
  refine ⟨fun _ => rfl, ?_⟩
  let s : St := { chain (n + 1) with stack := [.rel n, .store (.var 0) none] }
  have hr : Reach node 2 s := .tail (chain_reach (n + 1)) (chain_clear n)
  obtain ⟨s', h1, h2⟩ := descend_all n s ⟨_, rfl⟩ (fun k hk => by
    show ((List.range (n + 1)).map cell)[k]? = _
    rw [List.getElem?_map, List.getElem?_range (by omega)]
    rfl)
  refine ⟨s', steps_trans hr h1, ?_⟩
  rw [h2]
  show depth s + n = n
  simp [depth, s]

end Verif.RefGraph
