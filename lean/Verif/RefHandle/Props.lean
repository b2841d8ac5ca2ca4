import Verif.RefHandle.Model
/-!
# C60 – histories of `RefPtr` / `WeakPtr` operations keep the counts exact
-/
namespace Verif.RefHandle

/-! ## Specification: who references what -/

/-- Designated object of each handle, and the references the program holds outside handles (obtained by `Detach`/`Clone`/`AddRef`). -/
structure Abs where
  H : List (Option Nat) := []
  W : List (Option Nat) := []
  raw : Nat → Nat := fun _ => 0
  rawW : Nat → Nat := fun _ => 0
  /-- number of objects created so far -/
  n : Nat := 0

/-- number of strong / weak references to object `o` -/
def Abs.strong (A : Abs) (o : Nat) : Nat := A.H.count (some o) + A.raw o
def Abs.weak (A : Abs) (o : Nat) : Nat := A.W.count (some o) + A.rawW o

def Abs.alive (A : Abs) (o : Nat) : Bool := decide (0 < A.strong o)

def plus (f : Nat → Nat) (p : Option Nat) : Nat → Nat := fun o => f o + if p = some o then 1 else 0
def minus (f : Nat → Nat) (p : Option Nat) : Nat → Nat := fun o => f o - if p = some o then 1 else 0

/-- what a weak handle designating `p` must yield -/
def Abs.lock (A : Abs) : Option Nat → Option Nat
  | some o => if A.alive o then some o else none
  | none => none

def specStep (A : Abs) : Op → Abs × Ret
  | .new => ({ A with H := A.H ++ [none] }, .unit)
  | .create => ({ A with H := A.H ++ [some A.n], n := A.n + 1 }, .unit)
  | .fromRaw p => ({ A with H := A.H ++ [p] }, .unit)
  | .fromPtr p => ({ A with H := A.H ++ [p], raw := minus A.raw p }, .unit)
  | .copy j => ({ A with H := A.H ++ [A.H[j]?.join] }, .unit)
  | .move j => ({ A with H := A.H.set j none ++ [A.H[j]?.join] }, .unit)
  | .attach i p => ({ A with H := A.H.set i p, raw := minus A.raw p }, .unit)
  | .detach i => ({ A with H := A.H.set i none, raw := plus A.raw A.H[i]?.join }, .ptr A.H[i]?.join)
  | .clone i => ({ A with raw := plus A.raw A.H[i]?.join }, .ptr A.H[i]?.join)
  | .assignRaw i p => ({ A with H := A.H.set i p }, .unit)
  | .assign i j => ({ A with H := A.H.set i A.H[j]?.join }, .unit)
  | .assignMove i j => ({ A with H := (A.H.set j none).set i A.H[j]?.join }, .unit)
  | .get i => (A, .ptr A.H[i]?.join)
  | .rawAddRef p => ({ A with raw := plus A.raw (some p) }, .unit)
  | .rawRelease p => ({ A with raw := minus A.raw (some p) }, .unit)
  | .newW p => ({ A with W := A.W ++ [p] }, .unit)
  | .fromRefW p => ({ A with W := A.W ++ [p], rawW := minus A.rawW p }, .unit)
  | .copyW j => ({ A with W := A.W ++ [A.W[j]?.join] }, .unit)
  | .moveW j => ({ A with W := A.W.set j none ++ [A.W[j]?.join] }, .unit)
  | .clearW i => ({ A with W := A.W.set i none }, .unit)
  | .attachW i p => ({ A with W := A.W.set i p, rawW := minus A.rawW p }, .unit)
  | .detachW i => ({ A with W := A.W.set i none, rawW := plus A.rawW A.W[i]?.join }, .ptr A.W[i]?.join)
  | .assignRawW i p => ({ A with W := A.W.set i p }, .unit)
  | .assignW i j => ({ A with W := A.W.set i A.W[j]?.join }, .unit)
  | .assignMoveW i j => ({ A with W := (A.W.set j none).set i A.W[j]?.join }, .unit)
  | .getW i => ({ A with H := A.H ++ [A.lock A.W[i]?.join] }, .ptr (A.lock A.W[i]?.join))
  | .expiredW i => (A, .bool (A.lock A.W[i]?.join).isNone)

/-- Caller obligations: handles exist; a raw pointer whose reference is to be counted designates a living object; a raw pointer that is
handed over carries a reference owned by the program. -/
def Valid (A : Abs) : Op → Prop
  | .new | .create => True
  | .fromRaw p | .newW p => ∀ o, p = some o → A.alive o = true
  | .fromPtr p => ∀ o, p = some o → 0 < A.raw o
  | .fromRefW p => ∀ o, p = some o → 0 < A.rawW o
  | .copy j | .move j | .detach j | .clone j | .get j => j < A.H.length
  | .attach i p => i < A.H.length ∧ ∀ o, p = some o → 0 < A.raw o
  | .assignRaw i p => i < A.H.length ∧ ∀ o, p = some o → A.alive o = true
  | .assign i j | .assignMove i j => i < A.H.length ∧ j < A.H.length
  | .rawAddRef p => A.alive p = true
  | .rawRelease p => 0 < A.raw p
  | .copyW j | .moveW j | .clearW j | .detachW j | .getW j | .expiredW j => j < A.W.length
  | .attachW i p => i < A.W.length ∧ ∀ o, p = some o → 0 < A.rawW o
  | .assignRawW i p => i < A.W.length ∧ ∀ o, p = some o → A.alive o = true
  | .assignW i j | .assignMoveW i j => i < A.W.length ∧ j < A.W.length

def specRun (A : Abs) : List Op → Abs × List Ret
  | [] => (A, [])
  | op :: ops => let (A, r) := specStep A op; let (A, rs) := specRun A ops; (A, r :: rs)

def ValidRun (A : Abs) : List Op → Prop
  | [] => True
  | op :: ops => Valid A op ∧ ValidRun (specStep A op).1 ops

/-! ## Counts -/

/-- object record for `s` strong and `k` weak references: destroyed exactly when there are no strong ones, freed exactly when there are none at all -/
def want (s k : Nat) : Obj := ⟨s, k + (if 0 < s then 1 else 0), decide (s = 0), decide (s = 0 ∧ k = 0)⟩

def Ok (os : List Obj) (s k : Nat → Nat) : Prop :=
  (∀ o : Nat, o < os.length → os[o]? = some (want (s o) (k o))) ∧ ∀ o, os.length ≤ o → s o = 0 ∧ k o = 0

theorem Ok.lt {os : List Obj} {s k : Nat → Nat} (h : Ok os s k) {o : Nat} (hp : 0 < s o ∨ 0 < k o) : o < os.length := by
  refine Classical.byContradiction fun hn => ?_
  have := h.2 o (by omega)
  omega

theorem set_ok {os : List Obj} {s k s' k' : Nat → Nat} {o : Nat} (h : Ok os s k) (ho : o < os.length)
    (hs : ∀ e, e ≠ o → s' e = s e) (hk : ∀ e, e ≠ o → k' e = k e) : Ok (os.set o (want (s' o) (k' o))) s' k' := by
  refine ⟨fun e he => ?_, fun e he => ?_⟩
  · rw [List.getElem?_set]
    simp at he
    split
    · rename_i h; subst h; simp [he]
    · rename_i hne
      have hne' : e ≠ o := fun h => hne h.symm
      rw [hs e hne', hk e hne']; exact h.1 e he
  · simp at he
    have hne : e ≠ o := by omega
    rw [hs e hne, hk e hne]; exact h.2 e he

theorem plus_ne (f : Nat → Nat) (o e : Nat) (h : e ≠ o) : plus f (some o) e = f e := by
  have : ¬ o = e := fun h' => h h'.symm
  simp [plus, this]
theorem minus_ne (f : Nat → Nat) (o e : Nat) (h : e ≠ o) : minus f (some o) e = f e := by
  have : ¬ o = e := fun h' => h h'.symm
  simp [minus, this]
theorem plus_eq (f : Nat → Nat) (o : Nat) : plus f (some o) o = f o + 1 := by simp [plus]
theorem minus_eq (f : Nat → Nat) (o : Nat) : minus f (some o) o = f o - 1 := by simp [minus]

theorem addRef_ok {os : List Obj} {s k : Nat → Nat} {o : Nat} (h : Ok os s k) (hp : 0 < s o) :
    ∃ os', addRef os o = some os' ∧ os'.length = os.length ∧ Ok os' (plus s (some o)) k := by
  have ho := h.lt (.inl hp)
  refine ⟨os.set o (want (s o + 1) (k o)), ?_, by simp, ?_⟩
  · simp only [addRef, h.1 o ho, want]
    have : ¬ s o = 0 := by omega
    simp [this, hp]
  · have := set_ok (s' := plus s (some o)) (k' := k) h ho (plus_ne s o) (fun _ _ => rfl)
    rwa [plus_eq] at this

theorem release_ok {os : List Obj} {s k : Nat → Nat} {o : Nat} (h : Ok os s k) (hp : 0 < s o) :
    ∃ os', release os o = some os' ∧ os'.length = os.length ∧ Ok os' (minus s (some o)) k := by
  have ho := h.lt (.inl hp)
  refine ⟨os.set o (want (s o - 1) (k o)), ?_, by simp, ?_⟩
  · have hne : ¬ s o = 0 := by omega
    simp only [release, h.1 o ho, want]
    by_cases h1 : s o - 1 = 0
    · have : s o = 1 := by omega
      simp [this, releaseWeak, ho]
    · have : 0 < s o - 1 := by omega
      simp [hne, h1, this, hp]
  · have := set_ok (s' := minus s (some o)) (k' := k) h ho (minus_ne s o) (fun _ _ => rfl)
    rwa [minus_eq] at this

theorem addWeak_ok {os : List Obj} {s k : Nat → Nat} {o : Nat} (h : Ok os s k) (hp : 0 < s o ∨ 0 < k o) :
    ∃ os', addWeak os o = some os' ∧ os'.length = os.length ∧ Ok os' s (plus k (some o)) := by
  have ho := h.lt hp
  refine ⟨os.set o (want (s o) (k o + 1)), ?_, by simp, ?_⟩
  · have : ¬ (s o = 0 ∧ k o = 0) := by omega
    simp only [addWeak, h.1 o ho, want]
    simp [this]
    congr 2
    omega
  · have := set_ok (s' := s) (k' := plus k (some o)) h ho (fun _ _ => rfl) (plus_ne k o)
    rwa [plus_eq] at this

theorem releaseWeak_ok {os : List Obj} {s k : Nat → Nat} {o : Nat} (h : Ok os s k) (hp : 0 < k o) :
    ∃ os', releaseWeak os o = some os' ∧ os'.length = os.length ∧ Ok os' s (minus k (some o)) := by
  have ho := h.lt (.inr hp)
  refine ⟨os.set o (want (s o) (k o - 1)), ?_, by simp, ?_⟩
  · have h1 : ¬ (s o = 0 ∧ k o = 0) := by omega
    have h2 : ¬ (k o = 0) := by omega
    simp only [releaseWeak, h.1 o ho, want]
    by_cases h3 : s o = 0
    · simp [h2, h3]
    · have : 0 < s o := by omega
      simp [h2, h3, this]
      congr 2
      omega
  · have := set_ok (s' := s) (k' := minus k (some o)) h ho (fun _ _ => rfl) (minus_ne k o)
    rwa [minus_eq] at this

theorem plus_none (f : Nat → Nat) : plus f none = f := by funext o; simp [plus]
theorem minus_none (f : Nat → Nat) : minus f none = f := by funext o; simp [minus]

/-- the same for optional pointers -/
theorem opt_addRef {os : List Obj} {s k : Nat → Nat} {p : Option Nat} (h : Ok os s k) (hp : ∀ o, p = some o → 0 < s o) :
    ∃ os', opt addRef os p = some os' ∧ os'.length = os.length ∧ Ok os' (plus s p) k := by
  cases p with
  | none => exact ⟨os, rfl, rfl, by rw [plus_none]; exact h⟩
  | some o => exact addRef_ok h (hp o rfl)

theorem opt_release {os : List Obj} {s k : Nat → Nat} {p : Option Nat} (h : Ok os s k) (hp : ∀ o, p = some o → 0 < s o) :
    ∃ os', opt release os p = some os' ∧ os'.length = os.length ∧ Ok os' (minus s p) k := by
  cases p with
  | none => exact ⟨os, rfl, rfl, by rw [minus_none]; exact h⟩
  | some o => exact release_ok h (hp o rfl)

theorem opt_addWeak {os : List Obj} {s k : Nat → Nat} {p : Option Nat} (h : Ok os s k)
    (hp : ∀ o, p = some o → 0 < s o ∨ 0 < k o) :
    ∃ os', opt addWeak os p = some os' ∧ os'.length = os.length ∧ Ok os' s (plus k p) := by
  cases p with
  | none => exact ⟨os, rfl, rfl, by rw [plus_none]; exact h⟩
  | some o => exact addWeak_ok h (hp o rfl)

theorem opt_releaseWeak {os : List Obj} {s k : Nat → Nat} {p : Option Nat} (h : Ok os s k) (hp : ∀ o, p = some o → 0 < k o) :
    ∃ os', opt releaseWeak os p = some os' ∧ os'.length = os.length ∧ Ok os' s (minus k p) := by
  cases p with
  | none => exact ⟨os, rfl, rfl, by rw [minus_none]; exact h⟩
  | some o => exact releaseWeak_ok h (hp o rfl)

/-! ## Invariant -/

structure Rel (w : World) (A : Abs) : Prop where
  hs : w.hs = A.H
  ws : w.ws = A.W
  n : w.objs.length = A.n
  ok : Ok w.objs A.strong A.weak

/-- indicator of one reference -/
def one (p : Option Nat) (o : Nat) : Nat := if p = some o then 1 else 0

theorem count_push (l : List (Option Nat)) (p : Option Nat) (o : Nat) : (l ++ [p]).count (some o) = l.count (some o) + one p o := by
  simp [List.count_append, one, List.count_singleton]

theorem count_set (l : List (Option Nat)) (i : Nat) (p q : Option Nat) (h : l[i]? = some q) (o : Nat) :
    (l.set i p).count (some o) + one q o = l.count (some o) + one p o := by
  induction l generalizing i with
  | nil => simp at h
  | cons a t ih =>
    cases i with
    | zero => simp at h; subst h; simp [List.count_cons, one]; omega
    | succ i =>
      simp at h
      have := ih i h
      simp [List.count_cons]; omega

theorem count_pos (l : List (Option Nat)) (i : Nat) (o : Nat) (h : l[i]? = some (some o)) : 0 < l.count (some o) :=
  List.count_pos_iff.2 (List.mem_of_getElem? h)

theorem ok_congr {os : List Obj} {s k s' k' : Nat → Nat} (h : Ok os s k) (hs : ∀ o, s' o = s o) (hk : ∀ o, k' o = k o) : Ok os s' k' := by
  have e1 : s' = s := funext hs
  have e2 : k' = k := funext hk
  rw [e1, e2]; exact h

theorem alive_iff {A : Abs} {o : Nat} : A.alive o = true ↔ 0 < A.strong o := by simp [Abs.alive]

theorem get_lt {l : List (Option Nat)} {j : Nat} (h : j < l.length) : ∃ p, l[j]? = some p := ⟨l[j], by simp [h]⟩

theorem strong_of {A : Abs} {i o : Nat} (h : A.H[i]? = some (some o)) : 0 < A.strong o := by
  have := count_pos _ _ _ h
  simp only [Abs.strong]; omega

theorem weak_of {A : Abs} {i o : Nat} (h : A.W[i]? = some (some o)) : 0 < A.weak o := by
  have := count_pos _ _ _ h
  simp only [Abs.weak]; omega

theorem one_pos_of {p : Option Nat} {o : Nat} (h : p = some o) : one p o = 1 := by simp [one, h]

theorem plus_one (f : Nat → Nat) (p : Option Nat) (o : Nat) : plus f p o = f o + one p o := rfl
theorem minus_one (f : Nat → Nat) (p : Option Nat) (o : Nat) : minus f p o = f o - one p o := rfl
theorem one_le (p : Option Nat) (o : Nat) (f : Nat → Nat) (h : ∀ o, p = some o → 0 < f o) : one p o ≤ f o := by
  unfold one; split
  · rename_i e; have := h o e; omega
  · omega

set_option maxHeartbeats 2000000 in
theorem step_rel {w : World} {A : Abs} (r : Rel w A) (op : Op) (hv : Valid A op) :
    ∃ w', step w op = some (w', (specStep A op).2) ∧ Rel w' (specStep A op).1 := by
  obtain ⟨os, hs, ws⟩ := w
  obtain ⟨e1, e2, en, hok⟩ := r
  simp only at e1 e2 en hok
  subst e1 e2
  cases op with
  | new =>
    refine ⟨_, rfl, rfl, rfl, en, ok_congr hok (fun o => ?_) (fun _ => rfl)⟩
    simp [specStep, Abs.strong, count_push, one]
  | create =>
    refine ⟨_, rfl, ?_, rfl, by simp [specStep, en], ?_⟩
    · simp [specStep, en]
    · have hz := hok.2 os.length (Nat.le_refl _)
      have hS : ∀ o, (specStep A .create).1.strong o = A.strong o + one (some A.n) o := fun o => by
        simp only [specStep, Abs.strong, count_push]; omega
      refine ⟨fun o ho => ?_, fun o ho => ?_⟩
      · rw [hS]
        show _ = some (want _ (A.weak o))
        simp at ho
        by_cases h : o = os.length
        · subst h
          simp [hz.1, hz.2, one, ← en, want]
        · have : o < os.length := by omega
          have h' : ¬ A.n = o := by omega
          rw [List.getElem?_append_left this, hok.1 o this]
          simp [one, h']
      · rw [hS]
        simp at ho
        have h' : ¬ A.n = o := by omega
        have := hok.2 o (by omega)
        simp [one, h', this.1]; exact this.2
  | fromRaw p =>
    obtain ⟨os', h1, h2, h3⟩ := opt_addRef hok (p := p) (fun o ho => alive_iff.1 (hv o ho))
    refine ⟨_, by simp only [step, h1]; rfl, rfl, rfl, h2.trans en, ok_congr h3 (fun o => ?_) (fun _ => rfl)⟩
    simp only [specStep, Abs.strong, count_push, plus_one]; omega
  | fromPtr p =>
    refine ⟨_, rfl, rfl, rfl, en, ok_congr hok (fun o => ?_) (fun _ => rfl)⟩
    have := one_le p o A.raw hv
    simp only [specStep, Abs.strong, count_push, minus_one]; omega
  | copy j =>
    obtain ⟨p, hp⟩ := get_lt (show j < A.H.length from hv)
    obtain ⟨os', h1, h2, h3⟩ := opt_addRef hok (p := p) (fun o ho => strong_of (ho ▸ hp))
    refine ⟨{ objs := os', hs := A.H ++ [p], ws := A.W }, by simp only [step, clone, hp, h1]; rfl, by simp [specStep, hp], rfl, h2.trans en, ok_congr h3 (fun o => ?_) (fun _ => rfl)⟩
    simp only [specStep, Abs.strong, hp, Option.join_some, count_push, plus_one]; omega
  | move j =>
    obtain ⟨p, hp⟩ := get_lt (show j < A.H.length from hv)
    refine ⟨{ objs := os, hs := A.H.set j none ++ [p], ws := A.W }, by simp only [step, detach, hp]; rfl, by simp [specStep, hp], rfl, en, ok_congr hok (fun o => ?_) (fun _ => rfl)⟩
    have := count_set A.H j none p hp o
    have h0 : one none o = 0 := by simp [one]
    simp only [specStep, Abs.strong, hp, Option.join_some, count_push]; omega
  | attach i p =>
    obtain ⟨q, hq⟩ := get_lt (show i < A.H.length from hv.1)
    obtain ⟨os', h1, h2, h3⟩ := opt_release hok (p := q) (fun o ho => strong_of (ho ▸ hq))
    refine ⟨{ objs := os', hs := A.H.set i p, ws := A.W }, by simp only [step, attach, hq, h1]; rfl, rfl, rfl, h2.trans en, ok_congr h3 (fun o => ?_) (fun _ => rfl)⟩
    have := count_set A.H i p q hq o
    have := one_le p o A.raw hv.2
    simp only [specStep, Abs.strong, minus_one]; omega
  | detach i =>
    obtain ⟨q, hq⟩ := get_lt (show i < A.H.length from hv)
    refine ⟨{ objs := os, hs := A.H.set i none, ws := A.W }, by simp [step, detach, hq, specStep], rfl, rfl, en, ok_congr hok (fun o => ?_) (fun _ => rfl)⟩
    have := count_set A.H i none q hq o
    have h0 : one none o = 0 := by simp [one]
    simp only [specStep, Abs.strong, hq, Option.join_some, plus_one]; omega
  | clone i =>
    obtain ⟨q, hq⟩ := get_lt (show i < A.H.length from hv)
    obtain ⟨os', h1, h2, h3⟩ := opt_addRef hok (p := q) (fun o ho => strong_of (ho ▸ hq))
    refine ⟨{ objs := os', hs := A.H, ws := A.W }, by simp [step, clone, hq, specStep, h1], rfl, rfl, h2.trans en, ok_congr h3 (fun o => ?_) (fun _ => rfl)⟩
    simp only [specStep, Abs.strong, hq, Option.join_some, plus_one]; omega
  | assignRaw i p =>
    obtain ⟨q, hq⟩ := get_lt (show i < A.H.length from hv.1)
    obtain ⟨os', h1, h2, h3⟩ := opt_addRef hok (p := p) (fun o ho => alive_iff.1 (hv.2 o ho))
    obtain ⟨os'', g1, g2, g3⟩ := opt_release h3 (p := q) (fun o ho => by have := strong_of (ho ▸ hq); simp only [plus_one]; omega)
    refine ⟨{ objs := os'', hs := A.H.set i p, ws := A.W }, by simp only [step, h1, attach, hq, g1]; rfl, rfl, rfl, (g2.trans h2).trans en, ok_congr g3 (fun o => ?_) (fun _ => rfl)⟩
    have := count_set A.H i p q hq o
    simp only [specStep, Abs.strong, minus_one, plus_one]; omega
  | assign i j =>
    obtain ⟨q, hq⟩ := get_lt (show i < A.H.length from hv.1)
    obtain ⟨p, hp⟩ := get_lt (show j < A.H.length from hv.2)
    obtain ⟨os', h1, h2, h3⟩ := opt_addRef hok (p := p) (fun o ho => strong_of (ho ▸ hp))
    obtain ⟨os'', g1, g2, g3⟩ := opt_release h3 (p := q) (fun o ho => by have := strong_of (ho ▸ hq); simp only [plus_one]; omega)
    refine ⟨{ objs := os'', hs := A.H.set i p, ws := A.W }, by simp only [step, clone, hp, h1, Option.map_some, attach, hq, g1]; rfl, by simp [specStep, hp], rfl, (g2.trans h2).trans en, ok_congr g3 (fun o => ?_) (fun _ => rfl)⟩
    have := count_set A.H i p q hq o
    simp only [specStep, Abs.strong, hp, Option.join_some, minus_one, plus_one]; omega
  | assignMove i j =>
    obtain ⟨p, hp⟩ := get_lt (show j < A.H.length from hv.2)
    obtain ⟨q, hq⟩ := get_lt (show i < (A.H.set j none).length by simpa using hv.1)
    have hcj := count_set A.H j none p hp
    have h0 : ∀ o, one none o = 0 := fun o => by simp [one]
    obtain ⟨os'', g1, g2, g3⟩ := opt_release hok (p := q) (fun o ho => by
      have := count_pos _ _ _ (ho ▸ hq)
      have := hcj o
      have := h0 o
      simp only [Abs.strong]; omega)
    refine ⟨{ objs := os'', hs := (A.H.set j none).set i p, ws := A.W }, by simp only [step, detach, hp, attach, hq, g1]; rfl, by simp [specStep, hp], rfl, g2.trans en, ok_congr g3 (fun o => ?_) (fun _ => rfl)⟩
    have := count_set (A.H.set j none) i p q hq o
    have := hcj o
    have := h0 o
    simp only [specStep, Abs.strong, hp, Option.join_some, minus_one]; omega
  | get i =>
    obtain ⟨q, hq⟩ := get_lt (show i < A.H.length from hv)
    exact ⟨{ objs := os, hs := A.H, ws := A.W }, by simp [step, hq, specStep], rfl, rfl, en, hok⟩
  | rawAddRef p =>
    obtain ⟨os', h1, h2, h3⟩ := addRef_ok hok (alive_iff.1 hv)
    refine ⟨{ objs := os', hs := A.H, ws := A.W }, by simp [step, specStep, h1], rfl, rfl, h2.trans en, ok_congr h3 (fun o => ?_) (fun _ => rfl)⟩
    simp only [specStep, Abs.strong, plus_one]; omega
  | rawRelease p =>
    have hv : 0 < A.raw p := hv
    obtain ⟨os', h1, h2, h3⟩ := release_ok hok (o := p) (by simp only [Abs.strong]; omega)
    refine ⟨{ objs := os', hs := A.H, ws := A.W }, by simp [step, specStep, h1], rfl, rfl, h2.trans en, ok_congr h3 (fun o => ?_) (fun _ => rfl)⟩
    have := one_le (some p) o A.raw (fun o ho => by cases ho; exact hv)
    simp only [specStep, Abs.strong, minus_one]; omega
  | newW p =>
    obtain ⟨os', h1, h2, h3⟩ := opt_addWeak hok (p := p) (fun o ho => .inl (alive_iff.1 (hv o ho)))
    refine ⟨_, by simp only [step, h1]; rfl, rfl, rfl, h2.trans en, ok_congr h3 (fun _ => rfl) (fun o => ?_)⟩
    simp only [specStep, Abs.weak, count_push, plus_one]; omega
  | fromRefW p =>
    refine ⟨_, rfl, rfl, rfl, en, ok_congr hok (fun _ => rfl) (fun o => ?_)⟩
    have := one_le p o A.rawW hv
    simp only [specStep, Abs.weak, count_push, minus_one]; omega
  | copyW j =>
    obtain ⟨p, hp⟩ := get_lt (show j < A.W.length from hv)
    obtain ⟨os', h1, h2, h3⟩ := opt_addWeak hok (p := p) (fun o ho => .inr (weak_of (ho ▸ hp)))
    refine ⟨{ objs := os', hs := A.H, ws := A.W ++ [p] }, by simp only [step, hp, h1]; rfl, rfl, by simp [specStep, hp], h2.trans en, ok_congr h3 (fun _ => rfl) (fun o => ?_)⟩
    simp only [specStep, Abs.weak, hp, Option.join_some, count_push, plus_one]; omega
  | moveW j =>
    obtain ⟨p, hp⟩ := get_lt (show j < A.W.length from hv)
    refine ⟨{ objs := os, hs := A.H, ws := A.W.set j none ++ [p] }, by simp only [step, detachW, hp]; rfl, rfl, by simp [specStep, hp], en, ok_congr hok (fun _ => rfl) (fun o => ?_)⟩
    have := count_set A.W j none p hp o
    have h0 : one none o = 0 := by simp [one]
    simp only [specStep, Abs.weak, hp, Option.join_some, count_push]; omega
  | clearW i =>
    obtain ⟨q, hq⟩ := get_lt (show i < A.W.length from hv)
    obtain ⟨os', h1, h2, h3⟩ := opt_releaseWeak hok (p := q) (fun o ho => weak_of (ho ▸ hq))
    refine ⟨{ objs := os', hs := A.H, ws := A.W.set i none }, by simp only [step, attachW, hq, h1]; rfl, rfl, rfl, h2.trans en, ok_congr h3 (fun _ => rfl) (fun o => ?_)⟩
    have := count_set A.W i none q hq o
    have h0 : one none o = 0 := by simp [one]
    simp only [specStep, Abs.weak, minus_one]; omega
  | attachW i p =>
    obtain ⟨q, hq⟩ := get_lt (show i < A.W.length from hv.1)
    obtain ⟨os', h1, h2, h3⟩ := opt_releaseWeak hok (p := q) (fun o ho => weak_of (ho ▸ hq))
    refine ⟨{ objs := os', hs := A.H, ws := A.W.set i p }, by simp only [step, attachW, hq, h1]; rfl, rfl, rfl, h2.trans en, ok_congr h3 (fun _ => rfl) (fun o => ?_)⟩
    have := count_set A.W i p q hq o
    have := one_le p o A.rawW hv.2
    simp only [specStep, Abs.weak, minus_one]; omega
  | detachW i =>
    obtain ⟨q, hq⟩ := get_lt (show i < A.W.length from hv)
    refine ⟨{ objs := os, hs := A.H, ws := A.W.set i none }, by simp [step, detachW, hq, specStep], rfl, rfl, en, ok_congr hok (fun _ => rfl) (fun o => ?_)⟩
    have := count_set A.W i none q hq o
    have h0 : one none o = 0 := by simp [one]
    simp only [specStep, Abs.weak, hq, Option.join_some, plus_one]; omega
  | assignRawW i p =>
    obtain ⟨q, hq⟩ := get_lt (show i < A.W.length from hv.1)
    have hc := count_set A.W i p q hq
    by_cases hqp : q = p
    · subst hqp
      have e : A.W.set i q = A.W := by
        obtain ⟨hi, hi'⟩ := List.getElem?_eq_some_iff.1 hq
        rw [← hi']; simp
      exact ⟨{ objs := os, hs := A.H, ws := A.W }, by simp [step, resetW, hq, specStep], rfl, by simp [specStep, e], en, by simpa [specStep, e] using hok⟩
    · obtain ⟨os', h1, h2, h3⟩ := opt_releaseWeak hok (p := q) (fun o ho => weak_of (ho ▸ hq))
      obtain ⟨os'', g1, g2, g3⟩ := opt_addWeak h3 (p := p) (fun o ho => .inl (alive_iff.1 (hv.2 o ho)))
      refine ⟨{ objs := os'', hs := A.H, ws := A.W.set i p }, by simp [step, resetW, hq, hqp, h1, g1, specStep], rfl, rfl, (g2.trans h2).trans en, ok_congr g3 (fun _ => rfl) (fun o => ?_)⟩
      have := hc o
      have := one_le q o A.weak (fun o ho => weak_of (ho ▸ hq))
      simp only [Abs.weak] at this
      simp only [specStep, Abs.weak, minus_one, plus_one]; omega
  | assignW i j =>
    obtain ⟨q, hq⟩ := get_lt (show i < A.W.length from hv.1)
    obtain ⟨p, hp⟩ := get_lt (show j < A.W.length from hv.2)
    have hc := count_set A.W i p q hq
    by_cases hqp : q = p
    · subst hqp
      have e : A.W.set i q = A.W := by
        obtain ⟨hi, hi'⟩ := List.getElem?_eq_some_iff.1 hq
        rw [← hi']; simp
      exact ⟨{ objs := os, hs := A.H, ws := A.W }, by simp [step, resetW, hp, hq, specStep], rfl, by simp [specStep, hp, e], en, by simpa [specStep, hp, e] using hok⟩
    · obtain ⟨os', h1, h2, h3⟩ := opt_releaseWeak hok (p := q) (fun o ho => weak_of (ho ▸ hq))
      obtain ⟨os'', g1, g2, g3⟩ := opt_addWeak h3 (p := p) (fun o ho => by
        right
        have := weak_of (ho ▸ hp)
        have h0 : one q o = 0 := by unfold one; rw [if_neg (fun h => hqp (h.trans ho.symm))]
        simp only [minus_one]; omega)
      refine ⟨{ objs := os'', hs := A.H, ws := A.W.set i p }, by simp [step, resetW, hp, hq, hqp, h1, g1, specStep], rfl, by simp [specStep, hp], (g2.trans h2).trans en, ok_congr g3 (fun _ => rfl) (fun o => ?_)⟩
      have := hc o
      have := one_le q o A.weak (fun o ho => weak_of (ho ▸ hq))
      simp only [Abs.weak] at this
      simp only [specStep, Abs.weak, hp, Option.join_some, minus_one, plus_one]; omega
  | assignMoveW i j =>
    obtain ⟨p, hp⟩ := get_lt (show j < A.W.length from hv.2)
    by_cases hij : j = i
    · subst hij
      have e : (A.W.set j none).set j p = A.W := by
        obtain ⟨hi, hi'⟩ := List.getElem?_eq_some_iff.1 hp
        rw [← hi']; simp
      exact ⟨{ objs := os, hs := A.H, ws := A.W }, by simp [step, specStep], rfl, by simp only [specStep, hp, Option.join_some, e], en, by simp only [specStep, hp, Option.join_some, e]; exact hok⟩
    · obtain ⟨q, hq⟩ := get_lt (show i < (A.W.set j none).length by simpa using hv.1)
      have hcj := count_set A.W j none p hp
      have h0 : ∀ o, one none o = 0 := fun o => by simp [one]
      obtain ⟨os'', g1, g2, g3⟩ := opt_releaseWeak hok (p := q) (fun o ho => by
        have := count_pos _ _ _ (ho ▸ hq)
        have := hcj o
        have := h0 o
        simp only [Abs.weak]; omega)
      refine ⟨{ objs := os'', hs := A.H, ws := (A.W.set j none).set i p }, by simp only [step, ne_eq, hij, not_false_eq_true, if_true, detachW, hp, attachW, hq, g1]; rfl, rfl, by simp [specStep, hp], g2.trans en, ok_congr g3 (fun _ => rfl) (fun o => ?_)⟩
      have := count_set (A.W.set j none) i p q hq o
      have := hcj o
      have := h0 o
      simp only [specStep, Abs.weak, hp, Option.join_some, minus_one]; omega
  | getW i =>
    obtain ⟨q, hq⟩ := get_lt (show i < A.W.length from hv)
    cases q with
    | none =>
      refine ⟨{ objs := os, hs := A.H ++ [none], ws := A.W }, by simp [step, hq, specStep, Abs.lock], by simp [specStep, hq, Abs.lock], rfl, en, ok_congr hok (fun o => ?_) (fun _ => rfl)⟩
      simp [specStep, Abs.strong, hq, Abs.lock, count_push, one]
    | some o =>
      have hw := weak_of hq
      have hlt := hok.lt (.inr hw)
      by_cases ha : 0 < A.strong o
      · have hal := alive_iff.2 ha
        have hne : ¬ A.strong o = 0 := by omega
        obtain ⟨os', h1, h2, h3⟩ := addRef_ok hok ha
        have ht : tryAddRef os o = some (os', true) := by
          simp only [addRef, hok.1 o hlt, want] at h1
          simp only [tryAddRef, hok.1 o hlt, want]
          simp [hne] at h1 ⊢
          exact h1
        refine ⟨{ objs := os', hs := A.H ++ [some o], ws := A.W }, by simp [step, hq, specStep, Abs.lock, hal, ht], by simp [specStep, hq, Abs.lock, hal], rfl, h2.trans en, ok_congr h3 (fun e => ?_) (fun _ => rfl)⟩
        simp only [specStep, Abs.strong, hq, Option.join_some, Abs.lock, hal, if_true, count_push, plus_one]; omega
      · have hal : A.alive o = false := by simp [Abs.alive]; omega
        have hz : A.strong o = 0 := by omega
        have hk : ¬ A.weak o = 0 := by omega
        have ht : tryAddRef os o = some (os, false) := by
          simp only [tryAddRef, hok.1 o hlt, want]
          simp [hz, hk]
        refine ⟨{ objs := os, hs := A.H ++ [none], ws := A.W }, by simp [step, hq, specStep, Abs.lock, hal, ht], by simp [specStep, hq, Abs.lock, hal], rfl, en, ok_congr hok (fun e => ?_) (fun _ => rfl)⟩
        simp [specStep, Abs.strong, hq, Abs.lock, hal, count_push, one]
  | expiredW i =>
    obtain ⟨q, hq⟩ := get_lt (show i < A.W.length from hv)
    refine ⟨{ objs := os, hs := A.H, ws := A.W }, ?_, rfl, rfl, en, hok⟩
    cases q with
    | none => simp [step, hq, specStep, Abs.lock]
    | some o =>
      have hw := weak_of hq
      have hlt := hok.lt (.inr hw)
      have hk : ¬ A.weak o = 0 := by omega
      simp only [step, hq, hok.1 o hlt, want]
      by_cases ha : 0 < A.strong o
      · have hal := alive_iff.2 ha
        have hne : ¬ A.strong o = 0 := by omega
        simp [hne, specStep, hq, Abs.lock, hal]
      · have hal : A.alive o = false := by simp [Abs.alive]; omega
        have hz : A.strong o = 0 := by omega
        simp [hz, hk, specStep, hq, Abs.lock, hal]

theorem run_rel : ∀ (ops : List Op) {w : World} {A : Abs}, Rel w A → ValidRun A ops →
    ∃ w', run w ops = some (w', (specRun A ops).2) ∧ Rel w' (specRun A ops).1 := by
  intro ops
  induction ops with
  | nil => intro w A r _; exact ⟨w, rfl, r⟩
  | cons op ops ih =>
    intro w A r hv
    obtain ⟨w', h1, h3⟩ := step_rel r op hv.1
    obtain ⟨w'', h4, h5⟩ := ih h3 hv.2
    exact ⟨w'', by simp only [run, h1, h4, specRun], h5⟩

/-- **C60.** For every history of handle operations that respects the ownership of raw references: nothing is undefined, every pointer and
flag returned is the specified one (a weak handle yields its object exactly while a strong reference exists), and at the end every object
has exactly as many strong references as handles and raw references designate it, is destroyed exactly when there is none, and its memory
is freed exactly when there is no weak reference either. -/
theorem C60_history (ops : List Op) (hv : ValidRun {} ops) :
    ∃ w, run {} ops = some (w, (specRun {} ops).2) ∧ w.objs.length = (specRun {} ops).1.n ∧
      ∀ (o : Nat) x, w.objs[o]? = some x →
        x.strong = (specRun {} ops).1.strong o ∧
        (x.destroyed = true ↔ (specRun {} ops).1.strong o = 0) ∧
        (x.freed = true ↔ (specRun {} ops).1.strong o = 0 ∧ (specRun {} ops).1.weak o = 0) := by
  obtain ⟨w, h1, h2⟩ := run_rel ops (w := {}) (A := {}) ⟨rfl, rfl, rfl, by simp [Ok, Abs.strong, Abs.weak]⟩ hv
  refine ⟨w, h1, h2.n, fun o x hx => ?_⟩
  have ho := (List.getElem?_eq_some_iff.1 hx).1
  rw [h2.ok.1 o ho] at hx
  cases hx
  simp [want]

/-- When all handles were destroyed and the program gave back its references, every object is destroyed and freed. -/
theorem C60_no_leak (ops : List Op) (hv : ValidRun {} ops)
    (hH : ∀ p ∈ (specRun {} ops).1.H, p = none) (hW : ∀ p ∈ (specRun {} ops).1.W, p = none)
    (hr : ∀ o, (specRun {} ops).1.raw o = 0) (hrw : ∀ o, (specRun {} ops).1.rawW o = 0) :
    ∃ w, run {} ops = some (w, (specRun {} ops).2) ∧ ∀ x ∈ w.objs, x.destroyed = true ∧ x.freed = true := by
  obtain ⟨w, h1, _, h3⟩ := C60_history ops hv
  refine ⟨w, h1, fun x hx => ?_⟩
  obtain ⟨o, ho⟩ := List.getElem?_of_mem hx
  obtain ⟨_, a, b⟩ := h3 o x ho
  have z1 : (specRun {} ops).1.H.count (some o) = 0 := List.count_eq_zero.2 fun h => by have := hH _ h; cases this
  have z2 : (specRun {} ops).1.W.count (some o) = 0 := List.count_eq_zero.2 fun h => by have := hW _ h; cases this
  have s0 : (specRun {} ops).1.strong o = 0 := by simp only [Abs.strong, z1, hr]
  have k0 : (specRun {} ops).1.weak o = 0 := by simp only [Abs.weak, z2, hrw]
  exact ⟨a.2 s0, b.2 ⟨s0, k0⟩⟩

/-- a history meeting the hypotheses: two objects, sharing, raw references, weak handles outliving the object -/
def demo : List Op :=
  [.create, .copy 0, .create, .newW (some 0), .assign 2 0, .assignMove 1 2, .detach 0, .clone 1, .copyW 0, .assignMoveW 0 1, .getW 0,
    .attach 1 none, .attach 3 (some 0), .rawRelease 0, .expiredW 0, .attach 3 none, .expiredW 0, .getW 0, .clearW 0]

example : ValidRun {} demo := by
  simp [demo, ValidRun, Valid, specStep, Abs.alive, Abs.strong, Abs.lock, plus, minus]
example : (run {} demo).map (fun x => (x.2, x.1.objs)) =
    some ([.unit, .unit, .unit, .unit, .unit, .unit, .ptr (some 0), .ptr (some 0), .unit, .unit, .ptr (some 0), .unit, .unit, .unit,
      .bool false, .unit, .bool true, .ptr none, .unit], [⟨0, 0, true, true⟩, ⟨0, 0, true, true⟩]) := by decide

#print axioms C60_history
#print axioms C60_no_leak

end Verif.RefHandle
