import Verif.When.Any

namespace Verif.When.Any
open Verif.Common

def b2n (b : Bool) : Nat := if b then 1 else 0

def T (s : St) : PC → Prop
  | .idle => True
  | .release => True
  | .swap j => ∃ o, s.ops[j]? = some o ∧ o.null = false ∧ o.done = true
  | .invoke j => j < s.prog ∧ ∃ o, s.ops[j]? = some o ∧ o.done = true
  | .called j => ∃ o, s.ops[j]? = some o ∧ o.done = true
  | .loop k => s.creating = true ∧ k ≤ s.ops.length ∧ s.prog = k ∧ s.refused = none
  | .add k => s.creating = true ∧ s.prog = k ∧ s.refused = none ∧ ∃ o, s.ops[k]? = some o ∧ o.null = false
  | .addLocked k => s.creating = true ∧ s.prog = k ∧ s.refused = none ∧ ∃ o, s.ops[k]? = some o ∧ o.null = false ∧ o.locked = true
  | .addPush k => s.creating = true ∧ s.prog = k ∧ s.refused = none ∧ ∃ o, s.ops[k]? = some o ∧ o.null = false ∧ o.locked = true
  | .res k => s.creating = true ∧ ∃ o, s.ops[k]? = some o ∧ (o.null = true ∨ o.done = true)
  | .roll k => s.creating = true ∧ k ≤ s.ops.length ∧ s.resolves ≠ []
  | .reset k => s.creating = true ∧ k < s.ops.length ∧ s.resolves ≠ []
  | .fin => s.creating = true ∧ (s.prog = s.ops.length ∨ s.resolves ≠ [])

def ctok : PC → Nat
  | .idle => 0 | .release => 0 | .swap _ => 0 | .invoke _ => 0 | .called _ => 0
  | _ => 1

def claim (j : Nat) : PC → Nat
  | .add k => if k = j then 1 else 0
  | .addLocked k => if k = j then 1 else 0
  | .addPush k => if k = j then 1 else 0
  | .reset k => if k = j then 1 else 0
  | .invoke k => if k = j then 1 else 0
  | _ => 0

def held : PC → Nat
  | .called _ => 1 | .release => 1
  | _ => 0

def hold (o : Op) : Nat := b2n o.hold

structure Inv (s : St) : Prop where
  T : ∀ (i : Nat) (p : PC), s.threads[i]? = some p → T s p
  one : sumBy ctok s.threads = b2n s.creating
  cl : ∀ (j : Nat) (o : Op), s.ops[j]? = some o → b2n o.hold = b2n o.listed + sumBy (claim j) s.threads + b2n (s.refused == some j)
  ref : s.ref = s.user + sumBy hold s.ops + sumBy held s.threads
  freed : s.freed = if s.ref = 0 then 1 else 0
  user : s.creating = true → 1 ≤ s.user
  ub : s.ub = false
  new : ∀ (j : Nat) (o : Op), s.ops[j]? = some o → s.prog ≤ j → o.listed = false
  wake : ∀ (j : Nat) (o : Op), s.ops[j]? = some o → o.done = true → (o.listed = true ∨ ∃ i : Nat, s.threads[i]? = some (.addPush j)) →
    ∃ i : Nat, s.threads[i]? = some (.swap j)
  prog : s.resolves = [] → ∀ j < s.prog, (∃ o, s.ops[j]? = some o ∧ o.listed = true) ∨ ∃ i : Nat, s.threads[i]? = some (.invoke j) ∨ s.threads[i]? = some (.called j)
  fin : s.creating = false → s.resolves = [] → s.prog = s.ops.length
  own : ∀ j, s.own = some (some j) → j ∈ s.resolves
  own' : s.resolves ≠ [] → s.own ≠ none
  res : ∀ j ∈ s.resolves, ∃ o, s.ops[j]? = some o ∧ (o.null = true ∨ o.done = true)

structure OpMono (o o' : Op) : Prop where
  null : o'.null = o.null
  done : o.done = true → o'.done = true

def Mono (l l' : List Op) : Prop := l'.length = l.length ∧ ∀ (j : Nat) (o : Op), l[j]? = some o → ∃ o', l'[j]? = some o' ∧ OpMono o o'

theorem OpMono.refl (o : Op) : OpMono o o := ⟨rfl, id⟩
theorem Mono.refl (l : List Op) : Mono l l := ⟨rfl, fun _ o h => ⟨o, h, .refl o⟩⟩

theorem get_set {α} {l : List α} {i j : Nat} {x y : α} (h : (l.set i x)[j]? = some y) : (i = j ∧ y = x) ∨ (i ≠ j ∧ l[j]? = some y) := by
  by_cases e : i = j
  · subst e
    have hl : i < l.length := by
      have := (List.getElem?_eq_some_iff.1 h).1
      rwa [List.length_set] at this
    rw [List.getElem?_set_self hl] at h
    exact .inl ⟨rfl, by cases h; rfl⟩
  · rw [List.getElem?_set_ne e] at h; exact .inr ⟨e, h⟩

theorem set_get {α} {l : List α} {i : Nat} {x y : α} (h : l[i]? = some y) : (l.set i x)[i]? = some x :=
  List.getElem?_set_self (List.getElem?_eq_some_iff.1 h).1

theorem Mono.set {l : List Op} {j : Nat} {o o' : Op} (h : l[j]? = some o) (hm : OpMono o o') : Mono l (l.set j o') := by
  refine ⟨by simp, fun k x hk => ?_⟩
  by_cases e : j = k
  · subst e
    rw [h] at hk; cases hk
    exact ⟨o', set_get h, hm⟩
  · exact ⟨x, by rw [List.getElem?_set_ne e, hk], .refl x⟩

structure Frame (s s' : St) : Prop where
  ops : Mono s.ops s'.ops
  prog : s.prog ≤ s'.prog

theorem T_other {s s' : St} {p : PC} (h : T s p) (ht : ctok p = 0) (f : Frame s s') : T s' p := by
  cases p with
  | idle => trivial
  | release => trivial
  | swap j =>
    obtain ⟨o, h1, h2, h3⟩ := h
    obtain ⟨o', e, m⟩ := f.ops.2 j o h1
    exact ⟨o', e, by rw [m.null, h2], m.done h3⟩
  | invoke j =>
    obtain ⟨h0, o, h1, h3⟩ := h
    obtain ⟨o', e, m⟩ := f.ops.2 j o h1
    exact ⟨Nat.lt_of_lt_of_le h0 f.prog, o', e, m.done h3⟩
  | called j =>
    obtain ⟨o, h1, h3⟩ := h
    obtain ⟨o', e, m⟩ := f.ops.2 j o h1
    exact ⟨o', e, m.done h3⟩
  | _ => cases ht

structure Keep (s s' : St) : Prop where
  ops : Mono s.ops s'.ops
  prog : s'.prog = s.prog
  refused : s'.refused = s.refused
  creating : s'.creating = s.creating
  resolves : s.resolves ≠ [] → s'.resolves ≠ []
  lock : ∀ (j : Nat) (o o' : Op), s.ops[j]? = some o → s'.ops[j]? = some o' → o'.locked = o.locked

theorem T_keep {s s' : St} {p : PC} (h : T s p) (f : Keep s s') : T s' p := by
  have f' : Frame s s' := ⟨f.ops, by rw [f.prog]; exact Nat.le_refl _⟩
  cases p with
  | idle => trivial
  | release => trivial
  | swap j => exact T_other h rfl f'
  | invoke j => exact T_other h rfl f'
  | called j => exact T_other h rfl f'
  | loop k => exact ⟨by rw [f.creating]; exact h.1, by rw [f.ops.1]; exact h.2.1, by rw [f.prog]; exact h.2.2.1, by rw [f.refused]; exact h.2.2.2⟩
  | add k =>
    obtain ⟨h1, h2, h3, o, h4, h5⟩ := h
    obtain ⟨o', e, m⟩ := f.ops.2 k o h4
    exact ⟨by rw [f.creating, h1], by rw [f.prog, h2], by rw [f.refused, h3], o', e, by rw [m.null, h5]⟩
  | addLocked k =>
    obtain ⟨h1, h2, h3, o, h4, h5, h6⟩ := h
    obtain ⟨o', e, m⟩ := f.ops.2 k o h4
    exact ⟨by rw [f.creating, h1], by rw [f.prog, h2], by rw [f.refused, h3], o', e, by rw [m.null, h5], by rw [f.lock k o o' h4 e, h6]⟩
  | addPush k =>
    obtain ⟨h1, h2, h3, o, h4, h5, h6⟩ := h
    obtain ⟨o', e, m⟩ := f.ops.2 k o h4
    exact ⟨by rw [f.creating, h1], by rw [f.prog, h2], by rw [f.refused, h3], o', e, by rw [m.null, h5], by rw [f.lock k o o' h4 e, h6]⟩
  | res k =>
    obtain ⟨h1, o, h4, h5⟩ := h
    obtain ⟨o', e, m⟩ := f.ops.2 k o h4
    exact ⟨by rw [f.creating, h1], o', e, h5.imp (fun x => by rw [m.null, x]) m.done⟩
  | roll k => exact ⟨by rw [f.creating]; exact h.1, by rw [f.ops.1]; exact h.2.1, f.resolves h.2.2⟩
  | reset k => exact ⟨by rw [f.creating]; exact h.1, by rw [f.ops.1]; exact h.2.1, f.resolves h.2.2⟩
  | fin => exact ⟨by rw [f.creating]; exact h.1, by rw [f.ops.1, f.prog]; exact h.2.imp id f.resolves⟩

theorem ctok_le {s : St} (hI : Inv s) {i : Nat} {p : PC} (h : s.threads[i]? = some p) (ht : ctok p = 1) :
    s.creating = true ∧ ∀ (i' : Nat) (q : PC), i ≠ i' → s.threads[i']? = some q → ctok q = 0 := by
  have h1 := hI.one
  have h2 := le_sumBy ctok _ _ _ h
  have hc : s.creating = true := by cases e : s.creating with | true => rfl | false => rw [e] at h1; simp [b2n] at h1; omega
  refine ⟨hc, fun i' q e hq => ?_⟩
  have := add_le_sumBy ctok _ _ _ _ _ e h hq
  rw [hc] at h1; simp [b2n] at h1; omega

theorem T_creator {s s' : St} (hI : Inv s) {i : Nat} {p q : PC} (h : s.threads[i]? = some p) (ht : ctok p = 1) (f : Frame s s')
    (hs : s'.threads = s.threads.set i q) (hq : T s' q) : ∀ (i' : Nat) (x : PC), s'.threads[i']? = some x → T s' x := by
  intro i' x hx
  rw [hs] at hx
  rcases get_set hx with ⟨e, rfl⟩ | ⟨e, hx'⟩
  · exact hq
  · exact T_other (hI.T i' x hx') ((ctok_le hI h ht).2 i' x e hx') f

theorem T_any {s s' : St} (hI : Inv s) {i : Nat} {q : PC} (f : Keep s s')
    (hs : s'.threads = s.threads.set i q) (hq : T s' q) : ∀ (i' : Nat) (x : PC), s'.threads[i']? = some x → T s' x := by
  intro i' x hx
  rw [hs] at hx
  rcases get_set hx with ⟨e, rfl⟩ | ⟨e, hx'⟩
  · exact hq
  · exact T_keep (hI.T i' x hx') f

theorem claim_set {s : St} {i : Nat} {p : PC} (q : PC) (h : s.threads[i]? = some p) (j : Nat) :
    sumBy (claim j) (s.threads.set i q) + claim j p = sumBy (claim j) s.threads + claim j q := sumBy_set _ _ _ _ _ h
theorem held_set {s : St} {i : Nat} {p : PC} (q : PC) (h : s.threads[i]? = some p) :
    sumBy held (s.threads.set i q) + held p = sumBy held s.threads + held q := sumBy_set _ _ _ _ _ h
theorem ctok_set {s : St} {i : Nat} {p : PC} (q : PC) (h : s.threads[i]? = some p) :
    sumBy ctok (s.threads.set i q) + ctok p = sumBy ctok s.threads + ctok q := sumBy_set _ _ _ _ _ h
theorem hold_set {l : List Op} {j : Nat} {o : Op} (o' : Op) (h : l[j]? = some o) : sumBy hold (l.set j o') + hold o = sumBy hold l + hold o' := sumBy_set _ _ _ _ _ h

theorem rel_freed {ref freed : Nat} (hf : freed = if ref = 0 then 1 else 0) (hr : ref ≠ 0) :
    (rel ref freed).2 = if (rel ref freed).1 = 0 then 1 else 0 := by
  unfold rel
  rw [if_neg hr] at hf
  by_cases e : ref = 1
  · simp [e, hf]
  · simp only [if_neg e]; rw [if_neg (by omega), hf]

/-- a thread other than the moving one keeps its place -/
theorem stay {l : List PC} {i : Nat} {p q x : PC} (hp : l[i]? = some p) (hx : p ≠ x) {i' : Nat} (h : l[i']? = some x) : (l.set i q)[i']? = some x := by
  have e : i ≠ i' := by rintro rfl; rw [hp] at h; cases h; exact hx rfl
  rw [List.getElem?_set_ne e, h]

theorem back {l : List PC} {i : Nat} {q x : PC} (hx : q ≠ x) {i' : Nat} (h : (l.set i q)[i']? = some x) : l[i']? = some x := by
  rcases get_set h with ⟨_, e⟩ | ⟨_, h'⟩
  · exact absurd e.symm hx
  · exact h'

end Verif.When.Any
