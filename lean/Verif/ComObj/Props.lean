import Verif.ComObj.Model
/-!
# C83 – COM objects: the rules of `QueryInterface` and reference counting

Specification: `Implements inh i r` – interface `i` is `r` or inherits from it, where `inh` is the inheritance of the interfaces in C++ (every
interface inherits from `IUnknown`).
-/
namespace Verif.ComObj

/-- the inheritance of interfaces: reflexive, transitive, `IUnknown` at the root -/
structure Inherit (inh : Iid → Iid → Prop) : Prop where
  refl : ∀ i, inh i i
  trans : ∀ i j k, inh i j → inh j k → inh i k
  root : ∀ i, inh i iUnknown

/-- what the compiler checks: the interfaces of a chain are bases of the derived interface (62: `static_cast`) -/
def Declared (inh : Iid → Iid → Prop) : Base → Prop
  | .plain _ => True
  | .chain d os => ∀ o ∈ os, inh d o

/-- the interface type of a sub-object -/
def Base.type : Base → Iid
  | .plain i => i
  | .chain d _ => d

/-- the interfaces named in the declaration -/
def Base.names : Base → List Iid
  | .plain i => [i]
  | .chain d os => d :: os

theorem chainCast_iff (os : List Iid) (r : Iid) : chainCast os r = true ↔ r ∈ os := by
  induction os with
  | nil => simp [chainCast]
  | cons o os ih =>
    unfold chainCast
    by_cases h : r = o
    · simp [h]
    · simp [h, ih]

theorem cast_iff (b : Base) (r : Iid) : b.cast r = true ↔ r ∈ b.names := by
  cases b with
  | plain i => simp [Base.cast, Base.names]
  | chain d os =>
    unfold Base.cast Base.names
    by_cases h : r = d
    · simp [h]
    · simp [h, chainCast_iff]

theorem castFrom_some (k : Nat) (bs : List Base) (r : Iid) (j : Nat) (h : castFrom k bs r = some j) :
    ∃ i b, j = k + i ∧ bs[i]? = some b ∧ r ∈ b.names ∧ ∀ i' b', i' < i → bs[i']? = some b' → r ∉ b'.names := by
  induction bs generalizing k with
  | nil => cases h
  | cons b bs ih =>
    unfold castFrom at h
    by_cases hc : b.cast r = true
    · rw [if_pos hc] at h
      cases h
      exact ⟨0, b, rfl, rfl, (cast_iff b r).1 hc, by intro i' b' h; omega⟩
    · rw [if_neg hc] at h
      obtain ⟨i, b', h1, h2, h3, h4⟩ := ih (k + 1) h
      refine ⟨i + 1, b', by omega, h2, h3, ?_⟩
      intro i' c hi hg
      cases i' with
      | zero => cases hg; exact fun hm => hc ((cast_iff b r).2 hm)
      | succ i' => exact h4 i' c (by omega) hg

theorem castFrom_none (k : Nat) (bs : List Base) (r : Iid) : castFrom k bs r = none ↔ ∀ b ∈ bs, r ∉ b.names := by
  induction bs generalizing k with
  | nil => simp [castFrom]
  | cons b bs ih =>
    unfold castFrom
    by_cases hc : b.cast r = true
    · rw [if_pos hc]
      simp [(cast_iff b r).1 hc]
    · rw [if_neg hc, ih]
      have : r ∉ b.names := fun h => hc ((cast_iff b r).2 h)
      simp [this]

/-- **C83**: `QueryInterface` succeeds exactly for `IUnknown` and the interfaces named in the declaration; the answer depends on nothing else
(not on the time, not on the pointer it is asked through).  A failing call stores null and takes no reference, a succeeding one stores a pointer
and takes exactly one; without a place to store nothing happens. -/
theorem C83_query (bases : List Base) (r : Iid) :
    ((query bases r true).hr = .ok ↔ r = iUnknown ∨ ∃ b ∈ bases, r ∈ b.names) ∧
      ((query bases r true).hr ≠ .ok → query bases r true = ⟨.noInterface, some none, 0⟩) ∧
      ((query bases r true).hr = .ok → (query bases r true).addRefs = 1 ∧ ∃ k, (query bases r true).out = some (some k)) ∧
      query bases r false = ⟨.invalidArg, none, 0⟩ := by
  have hf : query bases r false = ⟨.invalidArg, none, 0⟩ := rfl
  cases hc : castFrom 0 bases r with
  | none =>
    have hn := (castFrom_none 0 bases r).1 hc
    by_cases hu : r = iUnknown
    · have e : query bases r true = ⟨.ok, some (some 0), 1⟩ := by unfold query; rw [hc]; simp [hu]
      rw [e]
      exact ⟨by simp [hu], by simp, fun _ => ⟨rfl, 0, rfl⟩, hf⟩
    · have e : query bases r true = ⟨.noInterface, some none, 0⟩ := by simp [query, hc, hu]
      rw [e]
      refine ⟨⟨by simp, ?_⟩, by simp, by simp, hf⟩
      rintro (h | ⟨b, h1, h2⟩)
      · exact absurd h hu
      · exact absurd h2 (hn b h1)
  | some k =>
    have e : query bases r true = ⟨.ok, some (some k), 1⟩ := by simp [query, hc]
    obtain ⟨i, b, _, h2, h3, _⟩ := castFrom_some 0 bases r k hc
    rw [e]
    exact ⟨⟨fun _ => .inr ⟨b, List.mem_of_getElem? h2, h3⟩, fun _ => rfl⟩, by simp, fun _ => ⟨rfl, k, rfl⟩, hf⟩

/-- **C83**: a pointer that is returned points to a sub-object of a type that is, or inherits from, the interface asked for. -/
theorem C83_type (inh : Iid → Iid → Prop) (hi : Inherit inh) (bases : List Base) (hb : bases ≠ []) (hd : ∀ b ∈ bases, Declared inh b) (r : Iid)
    (k : Nat) (h : (query bases r true).out = some (some k)) : ∃ b, bases[k]? = some b ∧ inh b.type r := by
  cases hc : castFrom 0 bases r with
  | none =>
    by_cases hu : r = iUnknown
    · have e : query bases r true = ⟨.ok, some (some 0), 1⟩ := by unfold query; rw [hc]; simp [hu]
      rw [e] at h
      cases h
      cases bases with
      | nil => exact absurd rfl hb
      | cons b bs => exact ⟨b, rfl, hu ▸ hi.root _⟩
    · have e : query bases r true = ⟨.noInterface, some none, 0⟩ := by simp [query, hc, hu]
      rw [e] at h
      cases h
  | some j =>
    have e : query bases r true = ⟨.ok, some (some j), 1⟩ := by simp [query, hc]
    rw [e] at h
    cases h
    obtain ⟨i, b, h1, h2, h3, _⟩ := castFrom_some 0 bases r k hc
    have hk : k = i := by omega
    subst hk
    refine ⟨b, h2, ?_⟩
    have hdb := hd b (List.mem_of_getElem? h2)
    cases b with
    | plain i => simp only [Base.names, List.mem_singleton] at h3; rw [h3]; exact hi.refl _
    | chain d os =>
      simp only [Base.names, List.mem_cons] at h3
      rcases h3 with h3 | h3
      · rw [h3]; exact hi.refl _
      · exact hdb r h3

/-- **C83**, the identity rule: whatever the declaration, asking for `IUnknown` always succeeds. -/
theorem C83_identity (bases : List Base) : ∃ k, (query bases iUnknown true).out = some (some k) ∧ (query bases iUnknown true).hr = .ok := by
  have h1 := (C83_query bases iUnknown).1.2 (.inl rfl)
  obtain ⟨_, k, hk⟩ := (C83_query bases iUnknown).2.2.1 h1
  exact ⟨k, hk, h1⟩

/-- The fall-back of line 178 alone would be wrong for a class without bases; the compiler rejects it (171).  For all others, if no base names
`IUnknown`, the identity is the first sub-object. -/
theorem C83_identity_first (bases : List Base) (h : ∀ b ∈ bases, iUnknown ∉ b.names) :
    (query bases iUnknown true).out = some (some 0) := by
  have := (castFrom_none 0 bases iUnknown).2 h
  simp [query, this]

/-- An interface that a class implements by inheritance, but does not name in a chain, is not found: the object implements 1 (base of 2), and
denies it. -/
theorem C83_unnamed_fails (inh : Iid → Iid → Prop) (h : inh 2 1) : inh (Base.plain 2).type 1 ∧ (query [.plain 2] 1 true).hr = .noInterface :=
  ⟨h, by decide⟩

/-! ## Life -/

/-- the counter equals the references, the object is deleted once, after the last one -/
structure Inv (s : St) : Prop where
  count : s.uRef = s.held
  once : s.deleting + s.deleted = if s.held = 0 then 1 else 0
  good : s.bad = false

theorem inv_step {bases : List Base} {maxHeld : Nat} (hm : maxHeld < 2 ^ 32) {s t : St} (hi : Inv s) (hl : s.held ≤ max 1 maxHeld)
    (h : Step bases maxHeld s t) : Inv t ∧ t.held ≤ max 1 maxHeld := by
  obtain ⟨hc, ho, hg⟩ := hi
  cases h with
  | addRef h1 h2 =>
    rw [if_neg (by omega)] at ho
    have hd : s.deleted = 0 := by omega
    refine ⟨⟨?_, ?_, ?_⟩, ?_⟩
    · simp only; omega
    · simp only; rw [if_neg (by omega)]; omega
    · simp [hg, hd]
    · simp only; omega
  | query r pp h1 h2 =>
    rw [if_neg (by omega)] at ho
    have hd : s.deleted = 0 := by omega
    have ha : (query bases r pp).addRefs = if (query bases r pp).hr = .ok then 1 else 0 := by
      cases pp with
      | false => rw [(C83_query bases r).2.2.2]; rfl
      | true =>
        by_cases hk : (query bases r true).hr = .ok
        · rw [if_pos hk]; exact ((C83_query bases r).2.2.1 hk).1
        · rw [if_neg hk, (C83_query bases r).2.1 hk]
    rw [ha] at h2
    refine ⟨⟨?_, ?_, ?_⟩, ?_⟩
    · simp only [ha]; omega
    · simp only; rw [if_neg (by omega)]; omega
    · simp [hg, hd]
    · simp only; omega
  | release h1 =>
    rw [if_neg (by omega)] at ho
    have hd : s.deleted = 0 := by omega
    refine ⟨⟨?_, ?_, ?_⟩, ?_⟩
    · simp only; omega
    · simp only
      by_cases h0 : s.held - 1 = 0
      · rw [if_pos h0, if_pos (by omega)]; omega
      · rw [if_neg h0, if_neg (by omega)]; omega
    · simp [hg, hd]
    · simp only; omega
  | delete h1 =>
    have hd : s.deleted = 0 := by split at ho <;> omega
    refine ⟨⟨hc, ?_, ?_⟩, hl⟩
    · rw [← ho]; simp only; omega
    · simp [hg, hd]

theorem inv_reach {bases : List Base} {maxHeld : Nat} (hm : maxHeld < 2 ^ 32) {s : St} (h : Reach bases maxHeld s) : Inv s ∧ s.held ≤ max 1 maxHeld := by
  induction h with
  | init => exact ⟨⟨rfl, rfl, rfl⟩, by simp only [init]; omega⟩
  | step _ hs ih => exact inv_step hm ih.1 ih.2 hs

/-- **C83**, partial: with fewer than 2^32 references at any time, the object lives as long as somebody owns a reference, no method is called on a
deleted object, it is deleted at most once, and it has been deleted when all references are gone and `Release` has returned.  Missing: 2^32 or more
references (`C83_wrap_fails`). -/
theorem C83_life_partial {bases : List Base} {maxHeld : Nat} (hm : maxHeld < 2 ^ 32) {s : St} (h : Reach bases maxHeld s) :
    (0 < s.held → s.deleted = 0) ∧ s.bad = false ∧ s.deleted ≤ 1 ∧ (s.held = 0 → s.deleting = 0 → s.deleted = 1) := by
  obtain ⟨⟨_, ho, hg⟩, _⟩ := inv_reach hm h
  refine ⟨fun h0 => ?_, hg, ?_, fun h0 h1 => ?_⟩
  · rw [if_neg (by omega)] at ho; omega
  · split at ho <;> omega
  · rw [if_pos h0] at ho; omega

theorem many (bases : List Base) (maxHeld n : Nat) (h : n + 1 ≤ maxHeld) : Reach bases maxHeld ⟨(n + 1) % 2 ^ 32, n + 1, 0, 0, false⟩ := by
  induction n with
  | zero => exact .init
  | succ n ih =>
    have h1 := Reach.step (ih (by omega)) (.addRef _ (by simp) (by simp only; omega))
    have e : ((n + 1) % 2 ^ 32 + 1) % 2 ^ 32 = (n + 1 + 1) % 2 ^ 32 := by omega
    simp only [e] at h1
    exact h1

/-- With 2^32 + 1 references the counter has wrapped to 1: the first `Release` deletes the object while 2^32 references are held, and the next call
uses it after its deletion. -/
theorem C83_wrap_fails : ∃ s, Reach [.plain 1] (2 ^ 32 + 1) s ∧ s.held = 2 ^ 32 - 1 ∧ s.bad = true := by
  have h0 := many [.plain 1] (2 ^ 32 + 1) (2 ^ 32) (by omega)
  have h1 := Reach.step h0 (.release _ (by simp only; omega))
  have h2 := Reach.step h1 (.delete _ (by simp only; decide +kernel))
  have h3 := Reach.step h2 (.release _ (by simp only; omega))
  refine ⟨_, h3, by simp only, by decide +kernel⟩

/-! ## Examples -/

/-- the class of the documentation (117-118): 2 = ITextProvider2, 1 = ITextProvider, 3 = ITextRangeProvider -/
example : (query [.chain 2 [1], .plain 3] 1 true) = ⟨.ok, some (some 0), 1⟩ ∧ (query [.chain 2 [1], .plain 3] 3 true) = ⟨.ok, some (some 1), 1⟩ ∧
    (query [.chain 2 [1], .plain 3] 0 true) = ⟨.ok, some (some 0), 1⟩ ∧ (query [.chain 2 [1], .plain 3] 4 true) = ⟨.noInterface, some none, 0⟩ := by
  decide

/-- two references, both released: deleted once -/
theorem C83_example : ∃ s, Reach [.chain 2 [1], .plain 3] 5 s ∧ s.held = 0 ∧ s.deleted = 1 := by
  have h0 : Reach [.chain 2 [1], .plain 3] 5 init := .init
  have h1 := Reach.step h0 (.query _ 3 true (by decide) (by decide))
  have h2 := Reach.step h1 (.release _ (by decide))
  have h3 := Reach.step h2 (.release _ (by decide))
  have h4 := Reach.step h3 (.delete _ (by decide))
  exact ⟨_, h4, by decide, by decide⟩

#print axioms C83_query
#print axioms C83_type
#print axioms C83_identity
#print axioms C83_identity_first
#print axioms C83_unnamed_fails
#print axioms C83_life_partial
#print axioms C83_wrap_fails
#print axioms C83_example

end Verif.ComObj
