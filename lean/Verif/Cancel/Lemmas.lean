import Verif.Cancel.Model
import Verif.Common.Sum

namespace Verif.Cancel
open Verif.Common
open Verif.CriticalSection (State lock unlock)

/-- **Specification**: the handlers that are registered after these events, in the order of their registration -/
def live : List Ev → List Nat
  | evs => evs.foldl (fun l e => match e with | .reg h => l ++ [h] | .unreg h => l.filter (· ≠ h)) []

theorem live_reg (l : List Ev) (h : Nat) : live (l ++ [.reg h]) = live l ++ [h] := by simp [live]
theorem live_unreg (l : List Ev) (h : Nat) : live (l ++ [.unreg h]) = (live l).filter (· ≠ h) := by simp [live]

/-- the frame of a `Cancel` call that will return true -/
def tok : Frame → Nat
  | .cLock => 1 | .cSwap => 1 | .cLoop _ => 1
  | _ => 0

/-- the frame is between `Lock` and `Unlock` -/
def inl : Frame → Bool
  | .regIn .. => true | .regAdd .. => true | .regOut .. => true | .unregIn .. => true | .unregOut .. => true | .cSwap => true | .cLoop _ => true
  | _ => false

def b2n (b : Bool) : Nat := if b then 1 else 0

def trues (s : St) : Nat := s.rets.count (.cancel true)

def CS (s : St) : Prop :=
  (s.cs = {} ∧ ∀ (i : Nat) (k : List Frame), s.stacks[i]? = some k → k.any inl = false) ∨
  ∃ o, s.cs.held = true ∧ s.cs.owner = o + 1 ∧ (∀ (i : Nat) (k : List Frame), i ≠ o → s.stacks[i]? = some k → k.any inl = false) ∧
    ∃ k, s.stacks[o]? = some k ∧ s.cs.ref = if k.any inl then 0 else -1

structure Inv (s : St) : Prop where
  one : sumBy (sumBy tok) s.stacks + trues s = b2n s.cancelled
  pre : ∀ (i : Nat) (k : List Frame), s.stacks[i]? = some k → (.cLock ∈ k ∨ .cSwap ∈ k) → s.swapped = false
  loop : ∀ (i : Nat) (k : List Frame) (p : List Nat), s.stacks[i]? = some k → .cLoop p ∈ k → s.swapped = true ∧ s.invoked ++ p = live s.log
  done : .cancel true ∈ s.rets → s.swapped = true ∧ s.invoked = live s.log
  sw : s.swapped = true → s.cancelled = true ∧ s.list = [] ∧ ∀ (i : Nat) (k : List Frame) (h : Nat) (l : Bool), s.stacks[i]? = some k → .regAdd h l ∉ k
  ns : s.swapped = false → s.invoked = [] ∧ s.list = live s.log ∧ (∀ (i : Nat) (k : List Frame), s.stacks[i]? = some k → k.length ≤ 1 ∧ ∀ h, .cb h ∉ k) ∧ CS s
  nodup : (live s.log).Nodup
  late : ∀ (i : Nat) (k : List Frame) (h : Nat), s.stacks[i]? = some k → .regAdd h true ∉ k ∧ .regOut h true true ∉ k ∧
    ((.reg h true ∈ k ∨ .regIn h true ∈ k) → s.cancelled = true)
  ret : ∀ h, .reg h true true ∉ s.rets

theorem get_set {α} {l : List α} {i j : Nat} {x y : α} (h : (l.set i x)[j]? = some y) : (i = j ∧ y = x) ∨ (i ≠ j ∧ l[j]? = some y) := by
  by_cases e : i = j
  · subst e
    have hl : i < l.length := by
      have := (List.getElem?_eq_some_iff.1 h).1
      rwa [List.length_set] at this
    rw [List.getElem?_set_self hl] at h
    exact .inl ⟨rfl, by cases h; rfl⟩
  · rw [List.getElem?_set_ne e] at h; exact .inr ⟨e, h⟩

theorem set_get {α} {l : List α} {i : Nat} {x y : α} (h : l[i]? = some y) : (l.set i x)[i]? = some x :=
  List.getElem?_set_self (List.getElem?_eq_some_iff.1 h).1

theorem inv_init {s} (h : Init s) : Inv s := by
  obtain ⟨n, rfl⟩ := h
  have hr : ∀ (i : Nat) (k : List Frame), (List.replicate n ([] : List Frame))[i]? = some k → k = [] := by
    intro i k hk
    exact List.eq_of_mem_replicate (List.mem_of_getElem? hk)
  refine ⟨?_, ?_, ?_, by simp, by simp, ?_, by simp [live], ?_, by simp⟩
  · show sumBy (sumBy tok) (List.replicate n []) + 0 = 0
    rw [(sumBy_eq_zero _ _).2 fun x hx => by rw [List.eq_of_mem_replicate hx]; rfl]
  · intro i k hk h; rfl
  · intro i k p hk h; rw [hr i k hk] at h; simp at h
  · intro _
    exact ⟨rfl, rfl, fun i k hk => by rw [hr i k hk]; simp, .inl ⟨rfl, fun i k hk => by rw [hr i k hk]; rfl⟩⟩
  · intro i k h hk; rw [hr i k hk]; simp

/-- in phase 0 an unfinished call is the only one of its thread -/
theorem single {s : St} (hI : Inv s) (hn : s.swapped = false) {i : Nat} {f : Frame} {k : List Frame} (hk : s.stacks[i]? = some (f :: k)) : k = [] := by
  have := ((hI.ns hn).2.2.1 i _ hk).1
  simp at this; exact this

theorem free0 {s : St} (hI : Inv s) (hn : s.swapped = false) {i : Nat} {k : List Frame} (hk : s.stacks[i]? = some k) (hf : Free k) : k = [] := by
  cases k with
  | nil => rfl
  | cons f k =>
    cases f with
    | cb h => exact absurd (List.mem_cons_self) (((hI.ns hn).2.2.1 i _ hk).2 h)
    | _ => exact absurd hf (by simp [Free])

theorem tok_set {s : St} {i : Nat} {k : List Frame} (k' : List Frame) (h : s.stacks[i]? = some k) :
    sumBy (sumBy tok) (s.stacks.set i k') + sumBy tok k = sumBy (sumBy tok) s.stacks + sumBy tok k' := sumBy_set _ _ _ _ _ h

/-- lock taken in phase 0 -/
theorem CS_lock {s : St} (h : CS s) {i : Nat} {f f' : Frame} {cs : State} (hk : s.stacks[i]? = some [f]) (hf : inl f = false) (hf' : inl f' = true) (hl : lock s.cs (i + 1) = some cs) :
    CS { s with cs := cs, stacks := s.stacks.set i [f'] } := by
  rcases h with ⟨h1, h2⟩ | ⟨o, h1, h2, h3, k, h4, h5⟩
  · rw [h1] at hl
    have hl : some ({ held := true, owner := i + 1, ref := 0 } : State) = some cs := by
      rw [← hl]; unfold lock; rw [if_neg (by show ¬ 0 = i + 1; omega)]; rfl
    cases hl
    refine .inr ⟨i, rfl, rfl, ?_, [f'], set_get hk, by simp [hf']⟩
    intro j k hj hk'
    rcases get_set hk' with ⟨e, _⟩ | ⟨_, e⟩
    · exact absurd e.symm hj
    · exact h2 j k e
  · by_cases e : i = o
    · subst e
      rw [hk] at h4; cases h4
      unfold lock at hl
      rw [if_pos h2] at hl; cases hl
      refine .inr ⟨i, h1, h2, ?_, [f'], set_get hk, ?_⟩
      · intro j k hj hk'
        rcases get_set hk' with ⟨e, _⟩ | ⟨_, e⟩
        · exact absurd e.symm hj
        · exact h3 j k hj e
      · show s.cs.ref + 1 = _
        rw [h5]; simp [hf, hf']
    · unfold lock at hl
      rw [if_neg (by omega), if_pos h1] at hl; cases hl

/-- a frame changes in phase 0 without lock or unlock -/
theorem CS_same {s s' : St} (h : CS s) {i : Nat} {k k' : List Frame} (hk : s.stacks[i]? = some k) (hf : k'.any inl = k.any inl) (hc : s'.cs = s.cs) (hs : s'.stacks = s.stacks.set i k') : CS s' := by
  rcases h with ⟨h1, h2⟩ | ⟨o, h1, h2, h3, kk, h4, h5⟩
  · refine .inl ⟨by rw [hc, h1], fun j x hx => ?_⟩
    rw [hs] at hx
    rcases get_set hx with ⟨e, rfl⟩ | ⟨_, e⟩
    · rw [hf]; exact h2 i k hk
    · exact h2 j x e
  · refine .inr ⟨o, by rw [hc, h1], by rw [hc, h2], fun j x hj hx => ?_, ?_⟩
    · rw [hs] at hx
      rcases get_set hx with ⟨e, rfl⟩ | ⟨_, e⟩
      · rw [hf]; exact h3 i k (by omega) hk
      · exact h3 j x hj e
    · rw [hs, hc]
      by_cases e : i = o
      · subst e
        rw [hk] at h4; cases h4
        exact ⟨k', set_get hk, by rw [h5, hf]⟩
      · exact ⟨kk, by rw [List.getElem?_set_ne e, h4], h5⟩

/-- the thread that is inside the lock is the owner; its unlock does not release -/
theorem CS_unlock {s s' : St} (h : CS s) {i : Nat} {f : Frame} (hk : s.stacks[i]? = some [f]) (hf : inl f = true) (hc : s'.cs = unlock s.cs) (hs : s'.stacks = s.stacks.set i []) :
    CS s' := by
  rcases h with ⟨h1, h2⟩ | ⟨o, h1, h2, h3, kk, h4, h5⟩
  · have := h2 i _ hk; simp [hf] at this
  · have e : i = o := by
      refine Classical.byContradiction fun e => ?_
      have := h3 i _ e hk; simp [hf] at this
    subst e
    rw [hk] at h4; cases h4
    have h5 : s.cs.ref = 0 := by rw [h5]; simp [hf]
    have hu : unlock s.cs = { s.cs with ref := -1 } := by
      simp only [unlock, h5]; rfl
    refine .inr ⟨i, by rw [hc, hu]; exact h1, by rw [hc, hu]; exact h2, fun j x hj hx => ?_, [], by rw [hs]; exact set_get hk, by rw [hc, hu]; rfl⟩
    rw [hs] at hx
    rcases get_set hx with ⟨e, _⟩ | ⟨_, e⟩
    · exact absurd e.symm hj
    · exact h3 j x hj e

/-- mutual exclusion in phase 0 -/
theorem CS_only {s : St} (h : CS s) {i : Nat} {f : Frame} (hk : s.stacks[i]? = some [f]) (hf : inl f = true) {j : Nat} {k : List Frame} (hj : s.stacks[j]? = some k) (hk' : k.any inl = true) : i = j := by
  rcases h with ⟨h1, h2⟩ | ⟨o, h1, h2, h3, kk, h4, h5⟩
  · have := h2 i _ hk; simp [hf] at this
  · have a : i = o := by
      refine Classical.byContradiction fun e => ?_
      have := h3 i _ e hk; simp [hf] at this
    have b : j = o := by
      refine Classical.byContradiction fun e => ?_
      have := h3 j _ e hj; simp [hk'] at this
    rw [a, b]

/-- there is only one `Cancel` call that will return true -/
theorem uniq {s : St} (hI : Inv s) {i : Nat} {f : Frame} {k : List Frame} (hk : s.stacks[i]? = some (f :: k)) (hf : tok f = 1) :
    .cancel true ∉ s.rets ∧ s.cancelled = true ∧ (∀ p, .cLoop p ∉ k) ∧ ∀ (j : Nat) (x : List Frame), i ≠ j → s.stacks[j]? = some x → ∀ p, .cLoop p ∉ x := by
  have h1 := hI.one
  have h2 := le_sumBy (sumBy tok) _ _ _ hk
  rw [sumBy_cons, hf] at h2
  have hc : s.cancelled = true := by
    cases e : s.cancelled with
    | true => rfl
    | false => rw [e] at h1; simp [b2n] at h1; omega
  rw [hc] at h1
  have h1 : sumBy (sumBy tok) s.stacks + trues s = 1 := h1
  refine ⟨fun hm => ?_, hc, fun p hp => ?_, fun j x e hx p hp => ?_⟩
  · have : 0 < trues s := List.count_pos_iff.2 hm
    omega
  · have := le_sumBy_of_mem tok _ _ hp
    simp only [tok] at this; omega
  · have h3 := le_sumBy_of_mem tok _ _ hp
    have h4 := add_le_sumBy (sumBy tok) _ _ _ _ _ e hk hx
    rw [sumBy_cons, hf] at h4
    simp only [tok] at h3; omega

end Verif.Cancel
