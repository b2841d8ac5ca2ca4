import Verif.ObserverPtr.Model
import Verif.Common.Sum
/-!
# C29 – `ObserverPtr` reports its target or null
-/
namespace Verif.ObserverPtr
open Verif.Common

/-! ## Specification: which object each observer designates -/

structure Abs where
  /-- target of each observer -/
  target : List (Option Nat) := []
  /-- which objects are alive -/
  alive : List Bool := []

/-- the value an observer has to report -/
def Abs.seen (A : Abs) (i : Nat) : Option Nat :=
  match A.target[i]? with
  | some (some o) => if A.alive[o]? = some true then some o else none
  | _ => none

def specStep (A : Abs) : Op → Abs × Ret
  | .newObj | .copyObj _ => ({ A with alive := A.alive ++ [true] }, .unit)
  | .destroyObj o => ({ A with alive := A.alive.set o false }, .unit)
  | .new p => ({ A with target := A.target ++ [p] }, .unit)
  | .copy j => ({ A with target := A.target ++ [(A.target[j]?).join] }, .unit)
  | .move j => ({ A with target := A.target.set j none ++ [(A.target[j]?).join] }, .unit)
  | .reset i => ({ A with target := A.target.set i none }, .unit)
  | .resetPtr i p => ({ A with target := A.target.set i p }, .unit)
  | .assign i j => ({ A with target := A.target.set i (A.target[j]?).join }, .unit)
  | .assignMove i j => ({ A with target := (A.target.set j none).set i (A.target[j]?).join }, .unit)
  | .get i => (A, .ptr (A.seen i))
  | .isExpired i => (A, .bool ((A.seen i).isNone))

/-- Caller obligations: operands exist, objects passed in are alive. -/
def Valid (A : Abs) : Op → Prop
  | .newObj => True
  | .copyObj o | .destroyObj o => A.alive[o]? = some true
  | .new p => ∀ o, p = some o → A.alive[o]? = some true
  | .copy j | .move j => j < A.target.length
  | .reset i | .get i | .isExpired i => i < A.target.length
  | .resetPtr i p => i < A.target.length ∧ ∀ o, p = some o → A.alive[o]? = some true
  | .assign i j | .assignMove i j => i < A.target.length ∧ j < A.target.length

/-- The restriction of the partial theorem: no copies of observed objects, and assignment between observers only if it changes no target
(self assignment, or both already designate the same object). -/
def Benign (A : Abs) : Op → Prop
  | .copyObj _ => False
  | .assign i j => i = j ∨ ∃ o, A.target[i]? = some (some o) ∧ A.target[j]? = some (some o)
  | .assignMove i j => i = j ∨ ∃ o, A.target[i]? = some (some o) ∧ A.target[j]? = some (some o)
  | _ => True

def specRun (A : Abs) : List Op → Abs × List Ret
  | [] => (A, [])
  | op :: ops => let (A, r) := specStep A op; let (A, rs) := specRun A ops; (A, r :: rs)

def AllRun (P : Abs → Op → Prop) (A : Abs) : List Op → Prop
  | [] => True
  | op :: ops => P A op ∧ AllRun P (specStep A op).1 ops

/-! ## Reference counts -/

/-- every block has the count `c`, and is freed exactly when that is zero -/
def Ok (ds : List Data) (c : Nat → Nat) : Prop := ∀ d x, ds[d]? = some x → x.ref = c d ∧ (x.freed = true ↔ c d = 0)

def bump (c : Nat → Nat) (d : Nat) : Nat → Nat := fun e => c e + if e = d then 1 else 0
def drop (c : Nat → Nat) (d : Nat) : Nat → Nat := fun e => c e - if e = d then 1 else 0

/-- same blocks, same `destroyed` flags -/
def Same (ds ds' : List Data) : Prop := ds'.length = ds.length ∧ ∀ d : Nat, (ds'[d]?).map (·.destroyed) = (ds[d]?).map (·.destroyed)

theorem Same.refl (ds : List Data) : Same ds ds := ⟨rfl, fun _ => rfl⟩
theorem Same.trans {a b c : List Data} (h : Same a b) (g : Same b c) : Same a c :=
  ⟨g.1.trans h.1, fun d => (g.2 d).trans (h.2 d)⟩

theorem addRef_ok {ds : List Data} {c : Nat → Nat} {d : Nat} (h : Ok ds c) (hd : d < ds.length) (hc : 0 < c d) :
    ∃ ds', addRef ds d = some ds' ∧ Ok ds' (bump c d) ∧ Same ds ds' := by
  obtain ⟨h1, h2⟩ := h d ds[d] (by simp [hd])
  have hf : ds[d].freed = false := by
    cases hh : ds[d].freed with
    | false => rfl
    | true => have := h2.1 hh; omega
  refine ⟨_, by simp [addRef, hd, hf]; rfl, fun e x hx => ?_, by simp, fun e => ?_⟩
  · rw [List.getElem?_set] at hx
    by_cases he : d = e
    · subst he
      simp [hd] at hx
      subst hx
      simp [bump, h1, hf]
    · rw [if_neg he] at hx
      have := h e x hx
      have he' : e ≠ d := fun h => he h.symm
      simpa [bump, he'] using this
  · rw [List.getElem?_set]
    by_cases he : d = e
    · subst he; simp [hd]
    · rw [if_neg he]

theorem release_ok {ds : List Data} {c : Nat → Nat} {d : Nat} (h : Ok ds c) (hd : d < ds.length) (hc : 0 < c d) :
    ∃ ds', release ds d = some ds' ∧ Ok ds' (drop c d) ∧ Same ds ds' := by
  obtain ⟨h1, h2⟩ := h d ds[d] (by simp [hd])
  have hf : ds[d].freed = false := by
    cases hh : ds[d].freed with
    | false => rfl
    | true => have := h2.1 hh; omega
  have hr : ds[d].ref ≠ 0 := by omega
  refine ⟨_, by simp [release, hd, hf, hr]; rfl, fun e x hx => ?_, by simp, fun e => ?_⟩
  · rw [List.getElem?_set] at hx
    by_cases he : d = e
    · subst he
      simp [hd] at hx
      subst hx
      simp [drop, h1]
    · rw [if_neg he] at hx
      have := h e x hx
      have he' : e ≠ d := fun h => he h.symm
      simpa [drop, he'] using this
  · rw [List.getElem?_set]
    by_cases he : d = e
    · subst he; simp [hd]
    · rw [if_neg he]

/-- the blocks with counts `c` put in -/
def fix (ds : List Data) (c : Nat → Nat) : List Data := ds.mapIdx fun d x => { x with ref := c d, freed := decide (c d = 0) }

theorem fix_ok (ds : List Data) (c : Nat → Nat) : Ok (fix ds c) c := by
  intro d x hx
  simp [fix] at hx
  obtain ⟨y, _, h⟩ := hx
  subst h; simp

theorem fix_same (ds : List Data) (c : Nat → Nat) : Same ds (fix ds c) :=
  ⟨by simp [fix], fun d => by simp [fix]; cases ds[d]? <;> simp⟩

theorem fix_same' (ds : List Data) (c : Nat → Nat) : Same (fix ds c) ds := ⟨(fix_same ds c).1.symm, fun d => ((fix_same ds c).2 d).symm⟩

/-! ## Invariant -/

def holdO (d : Nat) (x : Obj) : Nat := if x.data = some d then 1 else 0
def holdP (d : Nat) (x : Obs) : Nat := if x.data = some d then 1 else 0

/-- number of references to block `d` held by objects and observers -/
def holders (w : World) (d : Nat) : Nat := sumBy (holdO d) w.objs + sumBy (holdP d) w.obs

/-- `own[d]` is the object that created block `d`. -/
structure Rel (own : List Nat) (w : World) (A : Abs) : Prop where
  lenD : own.length = w.datas.length
  ok : Ok w.datas (holders w)
  aliveO : ∀ o : Nat, (w.objs[o]?).map (·.alive) = A.alive[o]?
  dataO : ∀ (o : Nat) x d, w.objs[o]? = some x → x.data = some d → x.alive = true ∧ own[d]? = some o
  destr : ∀ (d : Nat) y o, w.datas[d]? = some y → own[d]? = some o → (y.destroyed = false ↔ A.alive[o]? = some true)
  block : ∀ (d o : Nat), own[d]? = some o → A.alive[o]? = some true → ∃ x, w.objs[o]? = some x ∧ x.data = some d
  ownLt : ∀ (d o : Nat), own[d]? = some o → o < A.alive.length
  lenP : w.obs.length = A.target.length
  obsD : ∀ (i : Nat) x, w.obs[i]? = some x → ∀ d, x.data = some d → ∃ o, own[d]? = some o ∧ x.ptr = some o ∧ A.target[i]? = some (some o)
  obsN : ∀ (i : Nat) x, w.obs[i]? = some x → x.data = none → A.target[i]? = some none
  inj : ∀ (d e o : Nat), own[d]? = some o → own[e]? = some o → d = e

theorem holders_pos_obs {w : World} {i : Nat} {x : Obs} {d : Nat} (h : w.obs[i]? = some x) (hd : x.data = some d) : 0 < holders w d := by
  have := le_sumBy (holdP d) w.obs i x h
  have e : holdP d x = 1 := by simp [holdP, hd]
  unfold holders
  omega

theorem holders_pos_obj {w : World} {i : Nat} {x : Obj} {d : Nat} (h : w.objs[i]? = some x) (hd : x.data = some d) : 0 < holders w d := by
  have := le_sumBy (holdO d) w.objs i x h
  have e : holdO d x = 1 := by simp [holdO, hd]
  unfold holders
  omega

theorem same_get {ds ds' : List Data} (h : Same ds ds') {d : Nat} {y} (hy : ds'[d]? = some y) :
    ∃ y', ds[d]? = some y' ∧ y'.destroyed = y.destroyed := by
  have := h.2 d
  rw [hy] at this
  cases h : ds[d]? with
  | none => simp [h] at this
  | some y' => simp [h] at this; exact ⟨y', rfl, this.symm⟩

theorem Ok.congr {ds c c'} (h : Ok ds c) (hc : ∀ d, d < ds.length → c' d = c d) : Ok ds c' := by
  intro d x hx
  have : d < ds.length := (List.getElem?_eq_some_iff.1 hx).1
  rw [hc d this]; exact h d x hx

theorem holders_obs_set {w : World} {i : Nat} {x : Obs} (h : w.obs[i]? = some x) (ds : List Data) (y : Obs) (d : Nat) :
    holders { w with datas := ds, obs := w.obs.set i y } d + holdP d x = holders w d + holdP d y := by
  have := sumBy_set (holdP d) w.obs i y x h
  simp only [holders]; omega

theorem holders_obj_set {w : World} {i : Nat} {x : Obj} (h : w.objs[i]? = some x) (ds : List Data) (y : Obj) (d : Nat) :
    holders { w with datas := ds, objs := w.objs.set i y } d + holdO d x = holders w d + holdO d y := by
  have := sumBy_set (holdO d) w.objs i y x h
  simp only [holders]; omega

/-- the block of an alive object, with one more reference in flight -/
theorem getData_ok {own : List Nat} {w : World} {A : Abs} (r : Rel own w A) {o : Nat} (ho : A.alive[o]? = some true) :
    ∃ own' w' d, getObserverData w o = some (w', d) ∧ w'.obs = w.obs ∧ own'[d]? = some o ∧
      Ok w'.datas (bump (holders w') d) ∧ d < w'.datas.length ∧
      ∃ c, Ok c (holders w') ∧ Same c w'.datas ∧ Rel own' { w' with datas := c } A := by
  obtain ⟨x, hx, hxa⟩ : ∃ x, w.objs[o]? = some x ∧ x.alive = true := by
    have := r.aliveO o
    rw [ho] at this
    simpa using this
  have hol : o < w.objs.length := (List.getElem?_eq_some_iff.1 hx).1
  cases hd : x.data with
  | some d =>
    have hown := (r.dataO o x d hx hd).2
    have hdl : d < w.datas.length := by rw [← r.lenD]; exact (List.getElem?_eq_some_iff.1 hown).1
    obtain ⟨ds, h1, h2, h3⟩ := addRef_ok r.ok hdl (holders_pos_obj hx hd)
    refine ⟨own, { w with datas := ds }, d, by simp [getObserverData, hx, hxa, hd, h1], rfl, hown, h2, by rw [h3.1]; exact hdl, w.datas, r.ok, h3, r⟩
  | none =>
    -- a new block
    have hnew : ∀ d : Nat, own[d]? ≠ some o := by
      intro d hd'
      obtain ⟨x', e1, e2⟩ := r.block d o hd' ho
      rw [hx] at e1; simp at e1; subst e1; simp [hd] at e2
    obtain ⟨w0, ew0⟩ : ∃ w0 : World, w0 = { w with datas := w.datas ++ [⟨1, false, false⟩], objs := w.objs.set o { x with data := some w.datas.length } } := ⟨_, rfl⟩
    have hz : ∀ d, w.datas.length ≤ d → holders w d = 0 := by
      intro d hdl
      have e1 : sumBy (holdO d) w.objs = 0 := by
        rw [sumBy_eq_zero]; intro y hy
        obtain ⟨k, hk⟩ := List.getElem?_of_mem hy
        simp only [holdO]; rw [if_neg]
        intro hh
        have := (List.getElem?_eq_some_iff.1 (r.dataO k y d hk hh).2).1
        rw [r.lenD] at this; omega
      have e2 : sumBy (holdP d) w.obs = 0 := by
        rw [sumBy_eq_zero]; intro y hy
        obtain ⟨k, hk⟩ := List.getElem?_of_mem hy
        simp only [holdP]; rw [if_neg]
        intro hh
        obtain ⟨o', q1, _⟩ := r.obsD k y hk d hh
        have := (List.getElem?_eq_some_iff.1 q1).1
        rw [r.lenD] at this; omega
      simp [holders, e1, e2]
    have hh : ∀ d, holders w0 d = holders w d + if d = w.datas.length then 1 else 0 := by
      intro d
      have := holders_obj_set hx (w.datas ++ [⟨1, false, false⟩]) { x with data := some w.datas.length } d
      rw [← ew0] at this
      simp only [holdO, hd] at this
      simp at this
      rw [this]
      congr 1
      simp only [eq_comm]
    have hok : Ok w0.datas (holders w0) := by
      intro d y hy
      rw [hh d]
      rw [ew0] at hy
      simp only [List.getElem?_append] at hy
      split at hy
      · rename_i hlt
        have := r.ok d y hy
        have hne : d ≠ w.datas.length := by omega
        simpa [hne] using this
      · rename_i hge
        have e : d - w.datas.length = 0 := by
          refine Classical.byContradiction fun hne => ?_
          rw [List.getElem?_eq_none (by simp; omega)] at hy
          cases hy
        have e' : d = w.datas.length := by omega
        rw [e] at hy
        simp at hy
        subst hy
        subst e'
        simp [hz]
    have hpos : 0 < holders w0 w.datas.length := by rw [hh]; simp
    obtain ⟨ds, h1, h2, h3⟩ := addRef_ok hok (d := w.datas.length) (by rw [ew0]; simp) hpos
    refine ⟨own ++ [o], { w0 with datas := ds }, w.datas.length, ?_, by rw [ew0], by rw [← r.lenD]; simp, h2, by rw [h3.1, ew0]; simp, w0.datas, hok, h3, ?_⟩
    · rw [ew0] at h1
      simp only [getObserverData, hx, hxa, hd, if_true]
      simp only at h1
      rw [h1, ew0, hxa]; rfl
    · have hone : ∀ (d o' : Nat), (own ++ [o])[d]? = some o' → (own[d]? = some o' ∨ (d = w.datas.length ∧ o' = o)) := by
        intro d o' h
        rw [List.getElem?_append] at h
        split at h
        · exact .inl h
        · rename_i hge
          right
          have e : d - own.length = 0 := by
            refine Classical.byContradiction fun hne => ?_
            rw [List.getElem?_eq_none (by simp; omega)] at h
            cases h
          rw [e] at h
          simp at h
          exact ⟨by have := r.lenD; omega, h.symm⟩
      have honew : ∀ (d o' : Nat), own[d]? = some o' → (own ++ [o])[d]? = some o' := by
        intro d o' h
        have := (List.getElem?_eq_some_iff.1 h).1
        rw [List.getElem?_append_left this]; exact h
      have hlast : (own ++ [o])[w.datas.length]? = some o := by rw [← r.lenD]; simp
      rw [ew0]
      refine ⟨by simp [r.lenD], by rw [ew0] at hok; exact hok, fun k => ?_, fun k y d hk hy => ?_, fun d y k hk hy => ?_, fun d k hk ha => ?_, fun d k hk => ?_, r.lenP, fun i y hy d hd' => ?_, r.obsN, fun d e k hk hj => ?_⟩
      · simp only [List.getElem?_set]
        split
        · rename_i e; subst e
          rw [← r.aliveO o, hx]; simp [hol]
        · exact r.aliveO k
      · simp only [List.getElem?_set] at hk
        split at hk
        · rename_i e; subst e
          simp [hol] at hk
          subst hk
          simp at hy
          subst hy
          exact ⟨hxa, hlast⟩
        · obtain ⟨q1, q2⟩ := r.dataO k y d hk hy
          exact ⟨q1, honew _ _ q2⟩
      · rcases hone d k hy with h | ⟨e1, e2⟩
        · have hlt : d < w.datas.length := by rw [← r.lenD]; exact (List.getElem?_eq_some_iff.1 h).1
          rw [List.getElem?_append_left hlt] at hk
          exact r.destr d y k hk h
        · subst e1; subst e2
          simp at hk
          subst hk
          simp [ho]
      · rcases hone d k hk with h | ⟨e1, e2⟩
        · obtain ⟨x', q1, q2⟩ := r.block d k h ha
          have hne : k ≠ o := by intro e; subst e; exact hnew d h
          refine ⟨x', ?_, q2⟩
          simp only [List.getElem?_set]
          rw [if_neg (fun e => hne e.symm)]; exact q1
        · subst e1; subst e2
          exact ⟨{ x with data := some w.datas.length }, by simp [List.getElem?_set, hol], rfl⟩
      · rcases hone d k hk with h | ⟨e1, e2⟩
        · exact r.ownLt d k h
        · subst e2; exact (List.getElem?_eq_some_iff.1 ho).1
      · obtain ⟨o', q1, q2⟩ := r.obsD i y hy d hd'
        exact ⟨o', honew _ _ q1, q2⟩
      · rcases hone d k hk with h | ⟨e1, e2⟩
        · rcases hone e k hj with g | ⟨f1, f2⟩
          · exact r.inj d e k h g
          · subst f2; exact absurd h (hnew d)
        · rcases hone e k hj with g | ⟨f1, f2⟩
          · subst e2; exact absurd g (hnew e)
          · rw [e1, f1]

/-- changing one observer -/
theorem obs_set_rel {own : List Nat} {w : World} {A : Abs} (r : Rel own w A) {i : Nat} (hi : i < w.obs.length) {ds : List Data} {y : Obs} {t : Option Nat}
    (hs : Same w.datas ds) (hok : Ok ds (holders { w with datas := ds, obs := w.obs.set i y }))
    (hD : ∀ d, y.data = some d → ∃ o, own[d]? = some o ∧ y.ptr = some o ∧ t = some o) (hN : y.data = none → t = none) :
    Rel own { w with datas := ds, obs := w.obs.set i y } { A with target := A.target.set i t } := by
  have hlt : i < A.target.length := by rw [← r.lenP]; exact hi
  refine ⟨by rw [r.lenD]; exact hs.1.symm, hok, r.aliveO, r.dataO, fun d z o hz ho => ?_, r.block, r.ownLt, by simp [r.lenP], fun k z hz d hd => ?_, fun k z hz hd => ?_, r.inj⟩
  · obtain ⟨z', q1, q2⟩ := same_get hs hz
    rw [← q2]; exact r.destr d z' o q1 ho
  · simp only [List.getElem?_set] at hz ⊢
    split at hz
    · rename_i e; subst e
      simp [hi] at hz
      subst hz
      obtain ⟨o, q1, q2, q3⟩ := hD d hd
      exact ⟨o, q1, q2, by simp [hlt, q3]⟩
    · rename_i e
      rw [if_neg e]
      exact r.obsD k z hz d hd
  · simp only [List.getElem?_set] at hz ⊢
    split at hz
    · rename_i e; subst e
      simp [hi] at hz
      subst hz
      simp [hlt, hN hd]
    · rename_i e
      rw [if_neg e]
      exact r.obsN k z hz hd

theorem obs_data_lt {own : List Nat} {w : World} {A : Abs} (r : Rel own w A) {i : Nat} {x : Obs} {d : Nat} (h : w.obs[i]? = some x) (hd : x.data = some d) : d < w.datas.length := by
  obtain ⟨o, q1, _⟩ := r.obsD i x h d hd
  rw [← r.lenD]; exact (List.getElem?_eq_some_iff.1 q1).1

/-- replacing the block of observer `i` by one for which a reference is in flight -/
theorem replace_ok {own : List Nat} {w : World} {A : Abs} (r : Rel own w A) {i : Nat} {x : Obs} (hx : w.obs[i]? = some x) {ds : List Data} {nd : Option Nat}
    (hok : Ok ds (fun e => holders w e + if nd = some e then 1 else 0)) (hs : Same w.datas ds) (y : Obs) (hy : y.data = nd) :
    ∃ ds', releaseOpt ds x.data = some ds' ∧ Same w.datas ds' ∧ Ok ds' (holders { w with datas := ds', obs := w.obs.set i y }) := by
  cases hd : x.data with
  | none =>
    refine ⟨ds, rfl, hs, hok.congr fun d _ => ?_⟩
    have := holders_obs_set hx ds y d
    simp only [holdP, hd, hy] at this
    simpa using this
  | some d =>
    have hdl := obs_data_lt r hx hd
    have hpos := holders_pos_obs hx hd
    obtain ⟨ds', h1, h2, h3⟩ := release_ok hok (d := d) (by rw [hs.1]; exact hdl) (by omega)
    refine ⟨ds', h1, hs.trans h3, h2.congr fun e _ => ?_⟩
    have := holders_obs_set hx ds' y e
    simp only [holdP, hd, hy, Option.some.injEq] at this
    simp only [drop]
    by_cases he : e = d
    · subst he; simp at this ⊢; omega
    · have he' : ¬ d = e := fun h => he h.symm
      simp [he, he'] at this ⊢; omega

theorem reset_rel {own : List Nat} {w : World} {A : Abs} (r : Rel own w A) {i : Nat} (hi : i < A.target.length) :
    ∃ w', reset w i = some w' ∧ Rel own w' { A with target := A.target.set i none } := by
  have hlt : i < w.obs.length := by rw [r.lenP]; exact hi
  have hx : w.obs[i]? = some w.obs[i] := by simp [hlt]
  obtain ⟨ds, h1, h2, h3⟩ := replace_ok r hx (nd := none) (by simpa using r.ok) (Same.refl _) { w.obs[i] with data := none } rfl
  refine ⟨_, by simp only [reset, hx, h1]; rfl, obs_set_rel r hlt h2 h3 (by simp) (by simp)⟩

theorem resetPtr_rel {own : List Nat} {w : World} {A : Abs} (r : Rel own w A) {i : Nat} (hi : i < A.target.length) {p : Option Nat}
    (hp : ∀ o, p = some o → A.alive[o]? = some true) :
    ∃ own' w', resetPtr w i p = some w' ∧ Rel own' w' { A with target := A.target.set i p } := by
  have hlt : i < w.obs.length := by rw [r.lenP]; exact hi
  have hx : w.obs[i]? = some w.obs[i] := by simp [hlt]
  cases p with
  | none =>
    obtain ⟨ds, h1, h2, h3⟩ := replace_ok r hx (nd := none) (by simpa using r.ok) (Same.refl _) ⟨none, none⟩ rfl
    exact ⟨own, _, by simp only [resetPtr, hx, h1]; rfl, obs_set_rel r hlt h2 h3 (by simp) (by simp)⟩
  | some o =>
    obtain ⟨own', w', d, g1, g2, g3, g4, g5, c, g6, g7, g8⟩ := getData_ok r (hp o rfl)
    have hx' : w'.obs[i]? = some w.obs[i] := by rw [g2]; exact hx
    have hlt' : i < w'.obs.length := by rw [g2]; exact hlt
    obtain ⟨ds, h1, h2, h3⟩ := replace_ok (w := { w' with datas := c }) g8 hx' (ds := w'.datas) (nd := some d)
      (g4.congr fun e _ => by
        simp only [bump]
        show holders w' e + _ = holders w' e + _
        simp only [Option.some.injEq, eq_comm]) g7 ⟨some o, some d⟩ rfl
    refine ⟨own', { w' with datas := ds, obs := w'.obs.set i ⟨some o, some d⟩ }, by simp only [resetPtr, hx, g1, h1]; rfl, ?_⟩
    exact obs_set_rel g8 hlt' h2 h3 (fun e he => by simp at he; subst he; exact ⟨o, g3, rfl, rfl⟩) (by simp)

/-- adding one observer -/
theorem obs_push_rel {own : List Nat} {w : World} {A : Abs} (r : Rel own w A) {ds : List Data} {y : Obs} {t : Option Nat}
    (hs : Same w.datas ds) (hok : Ok ds (holders { w with datas := ds, obs := w.obs ++ [y] }))
    (hD : ∀ d, y.data = some d → ∃ o, own[d]? = some o ∧ y.ptr = some o ∧ t = some o) (hN : y.data = none → t = none) :
    Rel own { w with datas := ds, obs := w.obs ++ [y] } { A with target := A.target ++ [t] } := by
  have hlast : ∀ (k : Nat) z, (w.obs ++ [y])[k]? = some z → w.obs[k]? = some z ∨ (k = w.obs.length ∧ z = y) := by
    intro k z h
    rw [List.getElem?_append] at h
    split at h
    · exact .inl h
    · right
      have e : k - w.obs.length = 0 := by
        refine Classical.byContradiction fun hne => ?_
        rw [List.getElem?_eq_none (by simp; omega)] at h
        cases h
      rw [e] at h
      simp at h
      exact ⟨by omega, h.symm⟩
  have hold : ∀ (k : Nat) q, A.target[k]? = some q → (A.target ++ [t])[k]? = some q := by
    intro k q h
    rw [List.getElem?_append_left (List.getElem?_eq_some_iff.1 h).1]; exact h
  have hnew : (A.target ++ [t])[w.obs.length]? = some t := by rw [r.lenP]; simp
  refine ⟨by rw [r.lenD]; exact hs.1.symm, hok, r.aliveO, r.dataO, fun d z o hz ho => ?_, r.block, r.ownLt, by simp [r.lenP], fun k z hz d hd => ?_, fun k z hz hd => ?_, r.inj⟩
  · obtain ⟨z', q1, q2⟩ := same_get hs hz
    rw [← q2]; exact r.destr d z' o q1 ho
  · rcases hlast k z hz with h | ⟨e1, e2⟩
    · obtain ⟨o, q1, q2, q3⟩ := r.obsD k z h d hd
      exact ⟨o, q1, q2, hold _ _ q3⟩
    · subst e1; subst e2
      obtain ⟨o, q1, q2, q3⟩ := hD d hd
      exact ⟨o, q1, q2, by rw [hnew, q3]⟩
  · rcases hlast k z hz with h | ⟨e1, e2⟩
    · exact hold _ _ (r.obsN k z h hd)
    · subst e1; subst e2
      rw [hnew, hN hd]

theorem target_of {own : List Nat} {w : World} {A : Abs} (r : Rel own w A) {i : Nat} {x : Obs} (h : w.obs[i]? = some x) :
    (∀ d, x.data = some d → ∃ o, own[d]? = some o ∧ x.ptr = some o ∧ (A.target[i]?).join = some o) ∧
    (x.data = none → (A.target[i]?).join = none) := by
  refine ⟨fun d hd => ?_, fun hd => ?_⟩
  · obtain ⟨o, q1, q2, q3⟩ := r.obsD i x h d hd
    exact ⟨o, q1, q2, by simp [q3]⟩
  · simp [r.obsN i x h hd]

theorem addRefOpt_ok {own : List Nat} {w : World} {A : Abs} (r : Rel own w A) {i : Nat} {x : Obs} (h : w.obs[i]? = some x) :
    ∃ ds, addRefOpt w.datas x.data = some ds ∧ Same w.datas ds ∧ Ok ds (fun e => holders w e + if x.data = some e then 1 else 0) := by
  cases hd : x.data with
  | none => exact ⟨w.datas, rfl, Same.refl _, by simpa using r.ok⟩
  | some d =>
    obtain ⟨ds, h1, h2, h3⟩ := addRef_ok r.ok (obs_data_lt r h hd) (holders_pos_obs h hd)
    refine ⟨ds, h1, h3, h2.congr fun e _ => ?_⟩
    simp only [bump, Option.some.injEq, eq_comm]

theorem data_info {own : List Nat} {w : World} {A : Abs} (r : Rel own w A) {i : Nat} {x : Obs} {d : Nat} (h : w.obs[i]? = some x) (hd : x.data = some d) :
    ∃ y o, w.datas[d]? = some y ∧ y.freed = false ∧ x.ptr = some o ∧ A.target[i]? = some (some o) ∧ (y.destroyed = false ↔ A.alive[o]? = some true) := by
  have hl := obs_data_lt r h hd
  obtain ⟨o, q1, q2, q3⟩ := r.obsD i x h d hd
  have hy : w.datas[d]? = some w.datas[d] := by simp [hl]
  refine ⟨w.datas[d], o, hy, ?_, q2, q3, r.destr d _ o hy q1⟩
  have := (r.ok d _ hy).2
  have hp := holders_pos_obs h hd
  cases hf : w.datas[d].freed with
  | false => rfl
  | true => have := this.1 hf; omega

theorem set_self {β} (l : List β) (i : Nat) (x : β) (h : l[i]? = some x) : l.set i x = l := by
  apply List.ext_getElem?
  intro k
  rw [List.getElem?_set]
  split
  · rename_i e; subst e
    have := (List.getElem?_eq_some_iff.1 h).1
    simp only [this, if_true]; exact h.symm
  · rfl

set_option maxHeartbeats 1000000 in
theorem step_rel {own : List Nat} {w : World} {A : Abs} (r : Rel own w A) (op : Op) (hv : Valid A op) (hb : Benign A op) :
    ∃ own' w' x, step w op = some (w', x) ∧ x = (specStep A op).2 ∧ Rel own' w' (specStep A op).1 := by
  cases op with
  | newObj =>
    refine ⟨own, _, _, rfl, rfl, ⟨r.lenD, ?_, fun o => ?_, fun o x d hx hd => ?_, fun d y o hy ho => ?_, fun d o ho ha => ?_, fun d o ho => ?_, r.lenP, r.obsD, r.obsN, r.inj⟩⟩
    · refine r.ok.congr fun d _ => ?_
      simp [holders, sumBy_append, holdO]
    · have := r.aliveO o
      have hl : w.objs.length = A.alive.length := by
        refine Classical.byContradiction fun hne => ?_
        rcases Nat.lt_or_gt_of_ne hne with h | h
        · have := r.aliveO w.objs.length
          simp [h] at this
        · have := r.aliveO A.alive.length
          simp [h] at this
      simp only [specStep, List.getElem?_append, hl]
      split
      · exact this
      · cases h : o - A.alive.length <;> simp
    · simp only [List.getElem?_append] at hx
      split at hx
      · exact r.dataO o x d hx hd
      · have : x.data = none := by
          cases h : o - w.objs.length <;> rw [h] at hx <;> simp at hx
          subst hx; rfl
        rw [this] at hd; cases hd
    · rw [r.destr d y o hy ho]
      have := r.ownLt d o ho
      simp only [specStep]
      rw [List.getElem?_append_left this]
    · have := r.ownLt d o ho
      simp only [specStep] at ha
      rw [List.getElem?_append_left this] at ha
      obtain ⟨x, q1, q2⟩ := r.block d o ho ha
      refine ⟨x, ?_, q2⟩
      rw [List.getElem?_append_left (List.getElem?_eq_some_iff.1 q1).1]; exact q1
    · have := r.ownLt d o ho
      simp only [specStep, List.length_append]; omega
  | copyObj o => exact absurd hb id
  | destroyObj o =>
    have hv : A.alive[o]? = some true := hv
    have hal := (List.getElem?_eq_some_iff.1 hv).1
    obtain ⟨x, hx, hxa⟩ : ∃ x, w.objs[o]? = some x ∧ x.alive = true := by
      have := r.aliveO o
      rw [hv] at this
      simpa using this
    have hol : o < w.objs.length := (List.getElem?_eq_some_iff.1 hx).1
    have hother : ∀ k y d, (w.objs.set o ⟨false, none⟩)[k]? = some y → y.data = some d → k ≠ o ∧ w.objs[k]? = some y := by
      intro k y d hk hy
      rw [List.getElem?_set] at hk
      split at hk
      · rename_i e; subst e
        simp [hol] at hk
        subst hk; cases hy
      · rename_i e; exact ⟨fun h => e h.symm, hk⟩
    have hal' : ∀ k : Nat, ((w.objs.set o ⟨false, none⟩)[k]?).map (·.alive) = (A.alive.set o false)[k]? := by
      intro k
      rw [List.getElem?_set, List.getElem?_set]
      split
      · rename_i e; subst e; simp [hol, hal]
      · exact r.aliveO k
    have hset : ∀ k : Nat, k ≠ o → (A.alive.set o false)[k]? = A.alive[k]? := by
      intro k hk
      rw [List.getElem?_set, if_neg (fun h => hk h.symm)]
    have hblock : ∀ (d k : Nat), own[d]? = some k → (A.alive.set o false)[k]? = some true → ∃ x, (w.objs.set o ⟨false, none⟩)[k]? = some x ∧ x.data = some d := by
      intro d k hk ha
      have hne : k ≠ o := by
        intro e; subst e
        simp [List.getElem?_set, hal] at ha
      rw [hset k hne] at ha
      obtain ⟨x, q1, q2⟩ := r.block d k hk ha
      exact ⟨x, by rw [List.getElem?_set, if_neg (fun h => hne h.symm)]; exact q1, q2⟩
    cases hd : x.data with
    | none =>
      refine ⟨own, { w with objs := w.objs.set o ⟨false, none⟩ }, .unit, by simp [step, hx, hxa, hd], rfl, ⟨r.lenD, ?_, hal', fun k y d hk hy => ?_, fun d y k hy hk => ?_, hblock, fun d k hk => ?_, r.lenP, r.obsD, r.obsN, r.inj⟩⟩
      · refine r.ok.congr fun d _ => ?_
        have := holders_obj_set hx w.datas ⟨false, none⟩ d
        simp only [holdO, hd] at this
        simpa using this
      · obtain ⟨q1, q2⟩ := hother k y d hk hy
        exact r.dataO k y d q2 hy
      · simp only [specStep]
        by_cases e : k = o
        · subst e
          obtain ⟨x', q1, q2⟩ := r.block d k hk hv
          rw [hx] at q1; simp at q1; subst q1; rw [hd] at q2; cases q2
        · rw [hset k e]; exact r.destr d y k hy hk
      · simp only [specStep, List.length_set]; exact r.ownLt d k hk
    | some d =>
      have hown := (r.dataO o x d hx hd).2
      have hdl : d < w.datas.length := by rw [← r.lenD]; exact (List.getElem?_eq_some_iff.1 hown).1
      have hpos := holders_pos_obj hx hd
      have hyy : w.datas[d]? = some w.datas[d] := by simp [hdl]
      obtain ⟨y, hy⟩ : ∃ y, w.datas[d]? = some y := ⟨_, hyy⟩
      have hyok := r.ok d y hy
      have hyf : y.freed = false := by
        cases hf : y.freed with
        | false => rfl
        | true => have := hyok.2.1 hf; omega
      have hok1 : Ok (w.datas.set d { y with destroyed := true }) (holders w) := by
        intro e z hz
        rw [List.getElem?_set] at hz
        split at hz
        · rename_i e; subst e
          simp [hdl] at hz; subst hz; exact hyok
        · exact r.ok e z hz
      obtain ⟨ds, h1, h2, h3⟩ := release_ok hok1 (d := d) (by simpa using hdl) hpos
      refine ⟨own, { w with datas := ds, objs := w.objs.set o ⟨false, none⟩ }, .unit, by simp only [step, hx, hxa, hd, hy, if_true]; rw [if_neg (by simp [hyf]), h1]; rfl, rfl, ⟨?_, ?_, hal', fun k y d hk hy => ?_, fun e z k hz hk => ?_, hblock, fun d k hk => ?_, r.lenP, r.obsD, r.obsN, r.inj⟩⟩
      · show own.length = ds.length
        rw [h3.1]; simp [r.lenD]
      · refine h2.congr fun e _ => ?_
        have := holders_obj_set hx ds ⟨false, none⟩ e
        simp only [holdO, hd, Option.some.injEq] at this
        simp only [drop]
        by_cases he : e = d
        · subst he; simp at this ⊢; omega
        · have he' : ¬ d = e := fun h => he h.symm
          simp [he, he'] at this ⊢; omega
      · obtain ⟨q1, q2⟩ := hother k y d hk hy
        exact r.dataO k y d q2 hy
      · simp only [specStep]
        obtain ⟨z', q1, q2⟩ := same_get h3 hz
        rw [List.getElem?_set] at q1
        by_cases he : d = e
        · subst he
          simp [hdl] at q1
          subst q1
          rw [hown] at hk; simp at hk; subst hk
          rw [← q2]
          simp [List.getElem?_set, hal]
        · rw [if_neg he] at q1
          have hne : k ≠ o := by
            intro e'; subst e'
            obtain ⟨x', p1, p2⟩ := r.block e k hk hv
            rw [hx] at p1; simp at p1; subst p1; rw [hd] at p2; simp at p2; exact he p2
          rw [hset k hne, ← q2]; exact r.destr e z' k q1 hk
      · simp only [specStep, List.length_set]; exact r.ownLt d k hk
  | new p =>
    have r0 : Rel own { w with obs := w.obs ++ [⟨none, none⟩] } { A with target := A.target ++ [none] } :=
      obs_push_rel r (ds := w.datas) (y := ⟨none, none⟩) (t := none) (Same.refl _)
        (r.ok.congr fun d _ => by simp [holders, sumBy_append, holdP]) (by simp) (by simp)
    obtain ⟨own', w', h1, h2⟩ := resetPtr_rel r0 (i := w.obs.length) (p := p) (by simp [r.lenP]) hv
    refine ⟨own', w', .unit, by simp [step, h1], rfl, ?_⟩
    have e : (A.target ++ [none]).set w.obs.length p = A.target ++ [p] := by
      rw [r.lenP]; simp
    simp only [specStep]
    rw [← e]; exact h2
  | copy j =>
    have hv : j < A.target.length := hv
    have hlt : j < w.obs.length := by rw [r.lenP]; exact hv
    have hx : w.obs[j]? = some w.obs[j] := by simp [hlt]
    obtain ⟨ds, h1, h2, h3⟩ := addRefOpt_ok r hx
    obtain ⟨q1, q2⟩ := target_of r hx
    refine ⟨own, _, _, by simp only [step, hx, h1]; rfl, rfl, obs_push_rel r h2 ?_ q1 q2⟩
    refine h3.congr fun d _ => ?_
    simp [holders, sumBy_append, holdP]; omega
  | move j =>
    have hv : j < A.target.length := hv
    have hlt : j < w.obs.length := by rw [r.lenP]; exact hv
    have hx : w.obs[j]? = some w.obs[j] := by simp [hlt]
    obtain ⟨x, ex⟩ : ∃ x, x = w.obs[j] := ⟨_, rfl⟩
    rw [← ex] at hx
    obtain ⟨q1, q2⟩ := target_of r hx
    refine ⟨own, _, _, by simp only [step, hx]; rfl, rfl, ?_⟩
    -- first append the new observer, then clear the source
    have e1 : w.obs.set j ⟨none, none⟩ ++ [x] = (w.obs ++ [x]).set j ⟨none, none⟩ := by
      rw [List.set_append_left _ _ hlt]
    have e2 : A.target.set j none ++ [(A.target[j]?).join] = (A.target ++ [(A.target[j]?).join]).set j none := by
      rw [List.set_append_left _ _ hv]
    simp only [specStep]
    rw [e1, e2]
    -- directly
    have hok : Ok w.datas (holders { w with obs := (w.obs ++ [x]).set j ⟨none, none⟩ }) := by
      refine r.ok.congr fun d _ => ?_
      rw [← e1]
      have := sumBy_set (holdP d) w.obs j ⟨none, none⟩ x hx
      simp [holders, sumBy_append]
      have e : holdP d ⟨none, none⟩ = 0 := by simp [holdP]
      omega
    have hget : ∀ (k : Nat) z, ((w.obs ++ [x]).set j ⟨none, none⟩)[k]? = some z →
        (k = j ∧ z = ⟨none, none⟩) ∨ (k ≠ j ∧ w.obs[k]? = some z) ∨ (k = w.obs.length ∧ z = x) := by
      intro k z hz
      rw [List.getElem?_set] at hz
      split at hz
      · rename_i e; subst e
        have hl : j < (w.obs ++ [x]).length := by simp; omega
        simp only [hl, if_true] at hz
        left; exact ⟨rfl, by simpa using hz.symm⟩
      · rename_i hne
        rw [List.getElem?_append] at hz
        split at hz
        · right; left; exact ⟨fun h => hne h.symm, hz⟩
        · right; right
          have e : k - w.obs.length = 0 := by
            refine Classical.byContradiction fun hne => ?_
            rw [List.getElem?_eq_none (by simp; omega)] at hz
            cases hz
          rw [e] at hz
          simp at hz
          exact ⟨by omega, hz.symm⟩
    have htj : ((A.target ++ [(A.target[j]?).join]).set j none)[j]? = some none := by
      have hl : j < (A.target ++ [(A.target[j]?).join]).length := by simp; omega
      rw [List.getElem?_set]; simp only [if_true, hl]
    have htk : ∀ (k : Nat) q, k ≠ j → A.target[k]? = some q → ((A.target ++ [(A.target[j]?).join]).set j none)[k]? = some q := by
      intro k q hk hq
      rw [List.getElem?_set, if_neg (fun h => hk h.symm), List.getElem?_append_left (List.getElem?_eq_some_iff.1 hq).1]; exact hq
    have htl : ((A.target ++ [(A.target[j]?).join]).set j none)[w.obs.length]? = some (A.target[j]?).join := by
      rw [List.getElem?_set, if_neg (by omega), r.lenP]; simp
    refine ⟨r.lenD, hok, r.aliveO, r.dataO, r.destr, r.block, r.ownLt, by simp [r.lenP], fun k z hz d hd => ?_, fun k z hz hd => ?_, r.inj⟩
    · rcases hget k z hz with ⟨a, b⟩ | ⟨a, b⟩ | ⟨a, b⟩
      · subst b; cases hd
      · obtain ⟨o, p1, p2, p3⟩ := r.obsD k z b d hd
        exact ⟨o, p1, p2, htk k _ a p3⟩
      · subst a; subst b
        obtain ⟨o, p1, p2, p3⟩ := q1 d hd
        exact ⟨o, p1, p2, by rw [htl, p3]⟩
    · rcases hget k z hz with ⟨a, b⟩ | ⟨a, b⟩ | ⟨a, b⟩
      · subst a; exact htj
      · exact htk k _ a (r.obsN k z b hd)
      · subst a; subst b
        rw [htl, q2 hd]
  | reset i =>
    obtain ⟨w', h1, h2⟩ := reset_rel r hv
    exact ⟨own, w', .unit, by simp [step, h1], rfl, h2⟩
  | resetPtr i p =>
    obtain ⟨own', w', h1, h2⟩ := resetPtr_rel r hv.1 hv.2
    exact ⟨own', w', .unit, by simp [step, h1], rfl, h2⟩
  | assign i j =>
    have hi : i < w.obs.length := by rw [r.lenP]; exact hv.1
    have hj : j < w.obs.length := by rw [r.lenP]; exact hv.2
    have hx : w.obs[i]? = some w.obs[i] := by simp [hi]
    have hy : w.obs[j]? = some w.obs[j] := by simp [hj]
    obtain ⟨ds, h1, h2, h3⟩ := addRefOpt_ok r hy
    obtain ⟨ds', g1, g2, g3⟩ := replace_ok r hx h3 h2 { w.obs[i] with data := w.obs[j].data } rfl
    refine ⟨own, { w with datas := ds', obs := w.obs.set i { w.obs[i] with data := w.obs[j].data } }, .unit, by simp only [step, hx, hy, h1, g1]; rfl, rfl, ?_⟩
    obtain ⟨q1, q2⟩ := target_of r hy
    refine obs_set_rel r hi g2 g3 (fun d hd => ?_) q2
    obtain ⟨o, p1, p2, p3⟩ := q1 d hd
    refine ⟨o, p1, ?_, p3⟩
    rcases hb with e | ⟨o', e1, e2⟩
    · subst e; exact p2
    · rw [e2] at p3
      simp at p3
      subst p3
      have hdi : w.obs[i].data ≠ none := by
        intro h
        have := r.obsN i _ hx h
        rw [e1] at this; simp at this
      obtain ⟨di, hdi⟩ := Option.ne_none_iff_exists'.1 hdi
      obtain ⟨o, _, s2, s3⟩ := r.obsD i _ hx di hdi
      rw [e1] at s3; simp at s3; subst s3; exact s2
  | assignMove i j =>
    have hi : i < w.obs.length := by rw [r.lenP]; exact hv.1
    have hj : j < w.obs.length := by rw [r.lenP]; exact hv.2
    have hx : w.obs[i]? = some w.obs[i] := by simp [hi]
    have hy : w.obs[j]? = some w.obs[j] := by simp [hj]
    by_cases hij : i = j
    · subst hij
      refine ⟨own, w, .unit, ?_, rfl, ?_⟩
      · have e : w.obs.set i { ptr := w.obs[i].ptr, data := w.obs[i].data } = w.obs := set_self _ _ _ hx
        simp [step, hx, hi, releaseOpt, e]
      · have e : (A.target.set i none).set i (A.target[i]?).join = A.target := by
          have := hv.1
          rw [List.set_set]
          apply set_self
          simp [this]
        simp only [specStep]
        rw [e]; exact r
    · obtain ⟨o, e1, e2⟩ : ∃ o, A.target[i]? = some (some o) ∧ A.target[j]? = some (some o) := hb.resolve_left hij
      -- both hold the same block
      have key : ∀ k : Nat, ∀ x, w.obs[k]? = some x → A.target[k]? = some (some o) → ∃ d, x.data = some d ∧ x.ptr = some o ∧ own[d]? = some o := by
        intro k x hk ht
        cases hd : x.data with
        | none => have := r.obsN k x hk hd; rw [ht] at this; simp at this
        | some d =>
          obtain ⟨o', s1, s2, s3⟩ := r.obsD k x hk d hd
          rw [ht] at s3; simp at s3; subst s3
          exact ⟨d, rfl, s2, s1⟩
      obtain ⟨di, a1, a2, a3⟩ := key i _ hx e1
      obtain ⟨dj, b1, b2, b3⟩ := key j _ hy e2
      obtain ⟨w1, ew1⟩ : ∃ w1 : World, w1 = { w with obs := w.obs.set j { w.obs[j] with data := none } } := ⟨_, rfl⟩
      have hx1 : w1.obs[i]? = some w.obs[i] := by
        rw [ew1]; simp only [List.getElem?_set]; rw [if_neg (fun h => hij h.symm)]; exact hx
      have hi1 : i < w1.obs.length := by rw [ew1]; simpa using hi
      -- counts of the two steps
      have hsum : ∀ d, holders w1 d + (if dj = d then 1 else 0) = holders w d := by
        intro d
        have := holders_obs_set hy w.datas { w.obs[j] with data := none } d
        rw [ew1]
        simp only [holdP, b1, Option.some.injEq] at this
        simpa using this
      have hdi : di < w.datas.length := by rw [← r.lenD]; exact (List.getElem?_eq_some_iff.1 a3).1
      obtain ⟨ds, g1, g2, g3⟩ := release_ok r.ok hdi (holders_pos_obs hx a1)
      refine ⟨own, { w with datas := ds, obs := w1.obs.set i { w.obs[i] with data := w.obs[j].data } }, .unit, ?_, rfl, ?_⟩
      · rw [ew1] at hx1
        simp only [step, hy]
        rw [hx1]
        simp only [a1, releaseOpt, g1, ew1]; rfl
      · have hok : Ok ds (holders { w with datas := ds, obs := w1.obs.set i { w.obs[i] with data := w.obs[j].data } }) := by
          refine g2.congr fun d _ => ?_
          have h1 := holders_obs_set hx1 ds { w.obs[i] with data := w.obs[j].data } d
          have h2 := hsum d
          have h4 : holders { w1 with datas := ds, obs := w1.obs.set i { w.obs[i] with data := w.obs[j].data } } d
              = holders { w with datas := ds, obs := w1.obs.set i { w.obs[i] with data := w.obs[j].data } } d := by rw [ew1]
          rw [h4] at h1
          have hp := holders_pos_obs hx a1
          generalize hG : holders { w with datas := ds, obs := w1.obs.set i { w.obs[i] with data := w.obs[j].data } } d = G at h1 ⊢
          simp only [holdP, a1, b1, Option.some.injEq] at h1
          simp only [drop]
          by_cases c1 : d = di
          · by_cases c2 : d = dj
            · subst c1; subst c2; simp at h1 h2 ⊢; omega
            · have c2' : ¬ dj = d := fun h => c2 h.symm
              subst c1; simp [c2'] at h1 h2 ⊢; omega
          · have c1' : ¬ di = d := fun h => c1 h.symm
            by_cases c2 : d = dj
            · subst c2; simp [c1, c1'] at h1 h2 ⊢; omega
            · have c2' : ¬ dj = d := fun h => c2 h.symm
              simp [c1, c1', c2'] at h1 h2 ⊢; omega
        have r1 := obs_set_rel r hj (ds := fix w.datas (holders w1)) (y := { w.obs[j] with data := none }) (t := none)
          (fix_same _ _) (by rw [ew1]; exact fix_ok _ _) (by simp) (by simp)
        have r2 := obs_set_rel r1 (i := i) (by simpa using hi) (ds := ds) (y := { w.obs[i] with data := w.obs[j].data }) (t := some o)
          ((fix_same' _ _).trans g3) (by rw [ew1] at hok; exact hok)
          (fun d hd => by rw [b1] at hd; cases hd; exact ⟨o, b3, a2, rfl⟩) (fun hd => by rw [b1] at hd; cases hd)
        have e3 : (A.target[j]?).join = some o := by simp [e2]
        simp only [specStep]
        rw [e3, ew1]; exact r2
  | get i =>
    have hi : i < w.obs.length := by rw [r.lenP]; exact hv
    have hx : w.obs[i]? = some w.obs[i] := by simp [hi]
    refine ⟨own, w, .ptr (A.seen i), ?_, rfl, r⟩
    cases hd : w.obs[i].data with
    | none => simp [step, get, hx, hd, Abs.seen, r.obsN i _ hx hd]
    | some d =>
      obtain ⟨y, o, s1, s2, s3, s4, s5⟩ := data_info r hx hd
      cases hdest : y.destroyed <;> simp_all [step, get, Abs.seen]
  | isExpired i =>
    have hi : i < w.obs.length := by rw [r.lenP]; exact hv
    have hx : w.obs[i]? = some w.obs[i] := by simp [hi]
    refine ⟨own, w, .bool (A.seen i).isNone, ?_, rfl, r⟩
    cases hd : w.obs[i].data with
    | none => simp [step, isExpired, hx, hd, Abs.seen, r.obsN i _ hx hd]
    | some d =>
      obtain ⟨y, o, s1, s2, s3, s4, s5⟩ := data_info r hx hd
      cases hdest : y.destroyed <;> simp_all [step, isExpired, Abs.seen]

theorem run_rel : ∀ (ops : List Op) {own : List Nat} {w : World} {A : Abs}, Rel own w A → AllRun Valid A ops → AllRun Benign A ops →
    ∃ own' w', run w ops = some (w', (specRun A ops).2) ∧ Rel own' w' (specRun A ops).1 := by
  intro ops
  induction ops with
  | nil => intro own w A r _ _; exact ⟨own, w, rfl, r⟩
  | cons op ops ih =>
    intro own w A r hv hb
    obtain ⟨own', w', x, h1, h2, h3⟩ := step_rel r op hv.1 hb.1
    obtain ⟨own'', w'', h4, h5⟩ := ih h3 hv.2 hb.2
    subst h2
    exact ⟨own'', w'', by simp only [run, h1, h4, specRun], h5⟩

theorem rel_init : Rel [] {} {} := by
  constructor <;> simp [Ok]

/-- **C29 (partial).** For every history of operations on any number of observed objects and observers in which the caller passes only living
objects, no observed object is copied, and observer-to-observer assignment does not change what the target observes: nothing is undefined,
every `Get` returns exactly the observed object while it is alive and null afterwards, and `IsExpired` says which; at the end, every
`ObserverData` block has exactly as many references as living objects and observers designate it, and is freed when that is zero.
Missing for the full claim: assignment between observers that designate different things, and copies of observed objects
(`C29_assign_fails`, `C29_assign_wrong_object_fails`, `C29_factory_copy_fails`). -/
theorem C29_history_partial (ops : List Op) (hv : AllRun Valid {} ops) (hb : AllRun Benign {} ops) :
    ∃ w, run {} ops = some (w, (specRun {} ops).2) ∧
      (∀ (d : Nat) x, w.datas[d]? = some x →
        x.ref = w.objs.countP (fun o => o.data == some d) + w.obs.countP (fun p => p.data == some d) ∧ (x.freed = true ↔ x.ref = 0)) := by
  obtain ⟨own, w, h1, h2⟩ := run_rel ops rel_init hv hb
  refine ⟨w, h1, fun d x hx => ?_⟩
  obtain ⟨e1, e2⟩ := h2.ok d x hx
  have c1 : ∀ l : List Obj, sumBy (holdO d) l = l.countP (fun o => o.data == some d) := by
    intro l; induction l with
    | nil => rfl
    | cons a t ih => rw [List.countP_cons, sumBy_cons, ih]; simp [holdO]; omega
  have c2 : ∀ l : List Obs, sumBy (holdP d) l = l.countP (fun o => o.data == some d) := by
    intro l; induction l with
    | nil => rfl
    | cons a t ih => rw [List.countP_cons, sumBy_cons, ih]; simp [holdP]; omega
  rw [← c1, ← c2]
  exact ⟨e1, by rw [e1]; exact e2⟩

/-- the claim at full strength -/
def Claim29 : Prop := ∀ ops, AllRun Valid {} ops → ∃ w, run {} ops = some (w, (specRun {} ops).2)

/-- `ObserverPtr b; b = a;` leaves `b` empty although `a` observes a living object. -/
theorem C29_assign_fails : ¬ Claim29 := by
  intro h
  obtain ⟨w, hw⟩ := h [.newObj, .new (some 0), .new none, .assign 1 0, .get 1] (by simp [AllRun, Valid, specStep])
  have e : (run {} [.newObj, .new (some 0), .new none, .assign 1 0, .get 1]).map (·.2) = some [.unit, .unit, .unit, .unit, .ptr none] := by decide
  rw [hw] at e
  simp [specRun, specStep, Abs.seen] at e

/-- `b` observes `y`; after `b = a` it still returns `y`, and expires when `x`, the target of `a`, dies; then even the reference it kept
to the living `y` is gone. -/
theorem C29_assign_wrong_object_fails :
    (run {} [.newObj, .newObj, .new (some 0), .new (some 1), .assign 1 0, .get 1, .destroyObj 0, .get 1]).map (·.2)
      = some [.unit, .unit, .unit, .unit, .unit, .ptr (some 1), .unit, .ptr none] ∧
    (specRun {} [.newObj, .newObj, .new (some 0), .new (some 1), .assign 1 0, .get 1]).2
      = [.unit, .unit, .unit, .unit, .unit, .ptr (some 0)] := by decide

/-- worse: `b` observes `y`, `b = a`, `y` dies: `b.Get()` returns a pointer to the destroyed object `y`. -/
theorem C29_assign_dangling_fails :
    (run {} [.newObj, .newObj, .new (some 0), .new (some 1), .assign 1 0, .destroyObj 1, .get 1]).map (·.2)
      = some [.unit, .unit, .unit, .unit, .unit, .unit, .ptr (some 1)] := by decide

/-- Copying an observed object shares its block: when the copy dies, observers of the original report expiry. -/
theorem C29_factory_copy_fails :
    AllRun Valid {} [.newObj, .new (some 0), .copyObj 0, .destroyObj 1, .get 0] ∧
    (run {} [.newObj, .new (some 0), .copyObj 0, .destroyObj 1, .get 0]).map (·.2) = some [.unit, .unit, .unit, .unit, .ptr none] ∧
    (specRun {} [.newObj, .new (some 0), .copyObj 0, .destroyObj 1, .get 0]).2 = [.unit, .unit, .unit, .unit, .ptr (some 0)] := by
  refine ⟨by simp [AllRun, Valid, specStep], by decide, by decide⟩

/-- a history meeting the hypotheses of `C29_history_partial` -/
def demo : List Op :=
  [.newObj, .newObj, .new (some 0), .copy 0, .move 1, .resetPtr 1 (some 1), .assign 2 0, .assignMove 0 2, .get 0, .destroyObj 0, .get 0,
    .isExpired 0, .get 1, .reset 1, .isExpired 1, .reset 0, .new none, .get 3]

example : AllRun Valid {} demo ∧ AllRun Benign {} demo := by
  simp [demo, AllRun, Valid, Benign, specStep]
example : (run {} demo).map (fun x => (x.2.drop 8, x.1.datas.map (·.freed))) =
    some ([.ptr (some 0), .unit, .ptr none, .bool true, .ptr (some 1), .unit, .bool true, .unit, .unit, .ptr none], [true, false]) := by decide

#print axioms C29_history_partial
#print axioms C29_assign_fails
#print axioms C29_factory_copy_fails

end Verif.ObserverPtr
