import Verif.TokenFrom.Props

/-! # Which memory goes where (C75) -/
namespace Verif.TokenFrom

/-- some token or source has been freed -/
def FreedNew (l : List Obj) : Prop := ∃ (o : Nat) (x : Obj), l[o]? = some x ∧ x.freed = true ∧ x.kind ≠ .plain

def Kept (w : World) : Prop := w.mismatch = true ↔ FreedNew w.objs

/-- a change of an object that leaves its kind and its memory alone -/
theorem freedNew_set {l : List Obj} {o : Nat} {x y : Obj} (hx : l[o]? = some x) (hk : y.kind = x.kind) (hf : y.freed = x.freed) :
    FreedNew (l.set o y) ↔ FreedNew l := by
  have ho : o < l.length := (List.getElem?_eq_some_iff.1 hx).1
  constructor
  · rintro ⟨p, z, h1, h2, h3⟩
    by_cases hp : o = p
    · subst hp
      rw [List.getElem?_set_self ho] at h1
      obtain rfl : y = z := Option.some.inj h1
      exact ⟨o, x, hx, hf ▸ h2, hk ▸ h3⟩
    · rw [List.getElem?_set_ne hp] at h1
      exact ⟨p, z, h1, h2, h3⟩
  · rintro ⟨p, z, h1, h2, h3⟩
    by_cases hp : o = p
    · subst hp
      rw [hx] at h1
      obtain rfl : x = z := Option.some.inj h1
      exact ⟨o, y, List.getElem?_set_self ho, hf.trans h2, by rw [hk]; exact h3⟩
    · exact ⟨p, z, by rw [List.getElem?_set_ne hp]; exact h1, h2, h3⟩

/-- a new object -/
theorem freedNew_append {l : List Obj} {x : Obj} (hf : x.freed = false) : FreedNew (l ++ [x]) ↔ FreedNew l := by
  constructor
  · rintro ⟨p, z, h1, h2, h3⟩
    rcases Nat.lt_trichotomy p l.length with h | h | h
    · rw [List.getElem?_append_left h] at h1
      exact ⟨p, z, h1, h2, h3⟩
    · subst h
      rw [List.getElem?_concat_length] at h1
      obtain rfl : x = z := Option.some.inj h1
      rw [hf] at h2; cases h2
    · rw [List.getElem?_eq_none (by simp; omega)] at h1; cases h1
  · rintro ⟨p, z, h1, h2, h3⟩
    exact ⟨p, z, by rw [List.getElem?_append_left (List.getElem?_eq_some_iff.1 h1).1]; exact h1, h2, h3⟩

theorem kept_addRef {w w' : World} {o : Nat} (k : Kept w) (h : addRef w o = some w') : Kept w' := by
  unfold addRef at h
  split at h
  · cases h
  · next x hx =>
    split at h
    · cases h
    · obtain rfl := Option.some.inj h
      exact k.trans (freedNew_set hx (by rfl) (by rfl)).symm

theorem kept_addWeak {w w' : World} {o : Nat} (k : Kept w) (h : addWeak w o = some w') : Kept w' := by
  unfold addWeak at h
  split at h
  · cases h
  · next x hx =>
    split at h
    · cases h
    · obtain rfl := Option.some.inj h
      exact k.trans (freedNew_set hx (by rfl) (by rfl)).symm

theorem kept_releaseWeak {w w' : World} {o : Nat} (k : Kept w) (h : releaseWeak w o = some w') : Kept w' := by
  unfold releaseWeak at h
  split at h
  · cases h
  · next x hx =>
    split at h
    · cases h
    · next hf =>
      have hf : x.freed = false := by
        cases hh : x.freed
        · rfl
        · exact absurd (by simp [hh]) hf
      split at h
      · obtain rfl := Option.some.inj h
        have ho : o < w.objs.length := (List.getElem?_eq_some_iff.1 hx).1
        show (w.mismatch || x.kind.byNew) = true ↔ _
        constructor
        · intro hm
          by_cases hk : x.kind = .plain
          · rw [hk] at hm
            have hm : w.mismatch = true := by simpa [Kind.byNew] using hm
            obtain ⟨p, z, h1, h2, h3⟩ := k.1 hm
            refine ⟨p, z, ?_, h2, h3⟩
            have : o ≠ p := by
              rintro rfl
              rw [hx] at h1
              obtain rfl : x = z := Option.some.inj h1
              exact h3 hk
            show (w.objs.set o _)[p]? = some z
            rw [List.getElem?_set_ne this]; exact h1
          · exact ⟨o, _, List.getElem?_set_self ho, rfl, hk⟩
        · rintro ⟨p, z, h1, h2, h3⟩
          by_cases hp : o = p
          · subst hp
            have h1 : (w.objs.set o { x with weak := 0, freed := true })[o]? = some z := h1
            rw [List.getElem?_set_self ho] at h1
            obtain rfl := Option.some.inj h1
            have h3 : x.kind ≠ .plain := h3
            cases hk : x.kind
            · exact absurd hk h3
            · simp [Kind.byNew]
            · simp [Kind.byNew]
          · have h1 : (w.objs.set o { x with weak := 0, freed := true })[p]? = some z := h1
            rw [List.getElem?_set_ne hp] at h1
            simp [k.2 ⟨p, z, h1, h2, h3⟩]
      · obtain rfl := Option.some.inj h
        exact k.trans (freedNew_set hx (by rfl) (by rfl)).symm

theorem kept_dropMembers {w w' : World} {q : Kind} (k : Kept w) (h : dropMembers w q = some w') : Kept w' := by
  cases q with
  | token q =>
    cases q with
    | none => obtain rfl := Option.some.inj h; exact k
    | some p => exact kept_releaseWeak k h
  | plain => obtain rfl := Option.some.inj h; exact k
  | source => obtain rfl := Option.some.inj h; exact k

theorem kept_release {w w' : World} {o : Nat} (k : Kept w) (h : release w o = some w') : Kept w' := by
  unfold release at h
  split at h
  · cases h
  · next x hx =>
    split at h
    · cases h
    · split at h
      · have k1 : Kept { w with objs := w.objs.set o { x with ref := 0, destroyed := true } } := k.trans (freedNew_set hx (by rfl) (by rfl)).symm
        split at h
        · cases h
        · next w2 hw =>
          exact kept_releaseWeak (kept_dropMembers k1 hw) h
      · obtain rfl := Option.some.inj h
        exact k.trans (freedNew_set hx (by rfl) (by rfl)).symm

theorem kept_wrapNew {w w' : World} {q : Kind} (k : Kept w) (h : wrapNew w q = some w') : Kept w' := by
  unfold wrapNew at h
  obtain ⟨v, hv, rfl⟩ := Option.map_eq_some_iff.1 h
  have k1 : Kept { w with objs := w.objs ++ [⟨q, 1, 1, false, false, false⟩] } := k.trans (freedNew_append rfl).symm
  have k2 : Kept v := kept_addRef k1 hv
  exact k2

theorem kept_step {w w' : World} {op : Op} {r : Option Bool} (k : Kept w) (h : step w op = some (w', r)) : Kept w' := by
  cases op with
  | newObj => cases h; exact k.trans (freedNew_append rfl).symm
  | create => cases h; exact k.trans (freedNew_append rfl).symm
  | fromPtr i =>
    simp only [step] at h
    split at h
    · cases h
    · split at h
      · cases h
      · next w1 h1 =>
        obtain ⟨v, hv, he⟩ := Option.map_eq_some_iff.1 h
        cases he
        exact kept_wrapNew (kept_addWeak k h1) hv
  | fromNull =>
    obtain ⟨v, hv, he⟩ := Option.map_eq_some_iff.1 h
    cases he
    exact kept_wrapNew k hv
  | copy i =>
    simp only [step] at h
    split at h
    · cases h
    · obtain ⟨v, hv, he⟩ := Option.map_eq_some_iff.1 h
      cases he
      have k2 : Kept v := kept_addRef k hv
      exact k2
  | drop i =>
    simp only [step] at h
    split at h
    · cases h
    · obtain ⟨v, hv, he⟩ := Option.map_eq_some_iff.1 h
      cases he
      have k2 : Kept v := kept_release k hv
      exact k2
  | cancel i =>
    simp only [step] at h
    split at h
    · cases h
    · split at h
      · cases h
      · next x hx =>
        split at h
        · cases h
        · cases h
          exact k.trans (freedNew_set hx (by rfl) (by rfl)).symm
  | isReq i =>
    have : w' = w := by
      simp only [step] at h
      repeat' split at h
      all_goals cases h
      all_goals rfl
    rw [this]; exact k

/-- **C75**: memory from `new` goes to `free` exactly in those histories in which a token or a source is freed; objects of the user's own classes are
never affected. -/
theorem C75_mismatch {ops : List Op} {w : World} {rs : List (Option Bool)} (h : run {} ops = some (w, rs)) :
    w.mismatch = true ↔ ∃ (o : Nat) (x : Obj), w.objs[o]? = some x ∧ x.freed = true ∧ x.kind ≠ .plain := by
  have main : ∀ ops (v w : World) rs, Kept v → run v ops = some (w, rs) → Kept w := by
    intro ops
    induction ops with
    | nil => intro v w rs k h; cases h; exact k
    | cons op ops ih =>
      intro v w rs k h
      simp only [run] at h
      split at h
      · cases h
      · next v1 r hs =>
        obtain ⟨p, hp, he⟩ := Option.map_eq_some_iff.1 h
        cases he
        exact ih v1 p.1 p.2 (kept_step k hs) hp
  refine main ops {} w rs ?_ h
  exact ⟨fun h => (by cases h), fun ⟨o, x, h, _⟩ => (by simp at h)⟩

/-- Case: an object with two references, both given up: it is freed, and there is no mismatch; with a source beside it there is one. -/
theorem C75_mismatch_example : (∃ w rs, run {} [.newObj, .copy 0, .drop 0, .drop 1] = some (w, rs) ∧ w.mismatch = false ∧ w.objs.map (·.freed) = [true]) ∧
    ∃ w rs, run {} [.newObj, .create, .drop 1, .drop 0] = some (w, rs) ∧ w.mismatch = true :=
  ⟨⟨_, _, rfl, rfl, rfl⟩, ⟨_, _, rfl, rfl⟩⟩

#print axioms C75_mismatch
#print axioms C75_mismatch_example

end Verif.TokenFrom
