import Verif.TokenFrom.Model

/-! C75: tokens made from a pointer report the end of the object, but are never freed. -/
namespace Verif.TokenFrom
open Verif.Common

/-- the user's references to `o` -/
def refsTo (o : Nat) (hs : List (Option Nat)) : Nat := sumBy (fun x => if x = some o then 1 else 0) hs
/-- tokens that watch `o` -/
def watchers (o : Nat) (xs : List Obj) : Nat := sumBy (fun x => if x.kind = .token (some o) then 1 else 0) xs

def Kind.isToken : Kind → Bool
  | .token _ => true
  | _ => false

structure ObjOk (w : World) (o : Nat) (x : Obj) : Prop where
  ref : x.ref = refsTo o w.hs + (if x.kind.isToken then 1 else 0)
  weak : x.weak = watchers o w.objs + (if x.ref = 0 then 0 else 1)
  destroyed : x.destroyed = true ↔ x.ref = 0
  freed : x.freed = true ↔ x.weak = 0

structure Inv (w : World) : Prop where
  obj : ∀ (o : Nat) x, w.objs[o]? = some x → ObjOk w o x
  lt : ∀ (h o : Nat), w.hs[h]? = some (some o) → o < w.objs.length
  wlt : ∀ (t : Nat) x p, w.objs[t]? = some x → x.kind = .token (some p) → p < w.objs.length

theorem inv_init : Inv {} := ⟨fun o x h => by simp at h, fun h o e => by simp at e, fun t x p h => by simp at h⟩

theorem handle_some {w : World} {h o : Nat} (e : handle w h = some o) : w.hs[h]? = some (some o) := by
  unfold handle at e
  cases hh : w.hs[h]? with
  | none => rw [hh] at e; cases e
  | some v => rw [hh] at e; cases v with
    | none => cases e
    | some v => cases e; rfl

theorem refs_pos {w : World} {h o : Nat} (e : w.hs[h]? = some (some o)) : 0 < refsTo o w.hs := by
  have := le_sumBy (fun x => if x = some o then 1 else 0) w.hs h _ e
  simp at this; exact this

theorem refs_ge {w : World} (I : Inv w) (o : Nat) (h : w.objs.length ≤ o) : refsTo o w.hs = 0 :=
  (sumBy_eq_zero _ _).2 fun x hx => by
    by_cases e : x = some o
    · subst e
      obtain ⟨h', e'⟩ := List.getElem?_of_mem hx
      have := I.lt h' o e'; omega
    · rw [if_neg e]

theorem watch_ge {w : World} (I : Inv w) (o : Nat) (h : w.objs.length ≤ o) : watchers o w.objs = 0 :=
  (sumBy_eq_zero _ _).2 fun x hx => by
    by_cases e : x.kind = .token (some o)
    · obtain ⟨h', e'⟩ := List.getElem?_of_mem hx
      have := I.wlt h' x o e' e; omega
    · rw [if_neg e]

theorem live {w : World} (I : Inv w) {h o : Nat} (e : w.hs[h]? = some (some o)) : ∃ x, w.objs[o]? = some x ∧ 0 < x.ref ∧ x.freed = false := by
  have hl := I.lt h o e
  refine ⟨w.objs[o], List.getElem?_eq_getElem hl, ?_⟩
  have k := I.obj o _ (List.getElem?_eq_getElem hl)
  have p := refs_pos e
  have hr : 0 < w.objs[o].ref := by rw [k.ref]; omega
  refine ⟨hr, ?_⟩
  have := k.weak
  rw [if_neg (by omega)] at this
  cases hf : w.objs[o].freed with
  | false => rfl
  | true => have := k.freed.1 hf; omega

theorem watchers_set {l : List Obj} {o k : Nat} {x y : Obj} (h : l[o]? = some x) (hk : y.kind = x.kind) : watchers k (l.set o y) = watchers k l := by
  have := sumBy_set (fun x : Obj => if x.kind = .token (some k) then 1 else 0) l o y x h
  simp only [hk] at this
  unfold watchers; omega

theorem watchers_append (l : List Obj) (x : Obj) (k : Nat) : watchers k (l ++ [x]) = watchers k l + if x.kind = .token (some k) then 1 else 0 := by
  unfold watchers; rw [sumBy_append]; rfl

theorem refsTo_append (l : List (Option Nat)) (x : Option Nat) (k : Nat) : refsTo k (l ++ [x]) = refsTo k l + if x = some k then 1 else 0 := by
  unfold refsTo; rw [sumBy_append]; rfl

theorem get_set {l : List Obj} {t u : Nat} {x y : Obj} (h : (l.set t x)[u]? = some y) : (u = t ∧ y = x) ∨ (u ≠ t ∧ l[u]? = some y) := by
  by_cases e : t = u
  · subst e
    rw [List.getElem?_set] at h
    split at h
    · split at h
      · cases h; exact .inl ⟨rfl, rfl⟩
      · cases h
    · exact absurd rfl ‹_›
  · rw [List.getElem?_set_ne e] at h; exact .inr ⟨fun h => e h.symm, h⟩

/-- the invariant for a world that differs in the object `o` and the user's pointers -/
theorem inv_set {w : World} (I : Inv w) {o : Nat} {x y : Obj} (hx : w.objs[o]? = some x) (hk : y.kind = x.kind) (hs : List (Option Nat)) (b : Bool)
    (hr : ∀ k, k ≠ o → refsTo k hs = refsTo k w.hs) (hlt : ∀ (h k : Nat), hs[h]? = some (some k) → k < w.objs.length)
    (h1 : y.ref = refsTo o hs + (if x.kind.isToken then 1 else 0)) (h2 : y.weak = watchers o w.objs + (if y.ref = 0 then 0 else 1))
    (h3 : y.destroyed = true ↔ y.ref = 0) (h4 : y.freed = true ↔ y.weak = 0) : Inv { w with objs := w.objs.set o y, hs := hs, mismatch := b } := by
  refine ⟨fun k z hz => ?_, fun h k e => ?_, fun t z p hz hp => ?_⟩
  · dsimp only at hz
    have wa := watchers_set (k := k) hx hk
    rcases get_set hz with ⟨rfl, rfl⟩ | ⟨hne, hz⟩
    · refine ⟨?_, ?_, h3, h4⟩
      · dsimp only; rw [hk]; exact h1
      · dsimp only; rw [wa]; exact h2
    · have kk := I.obj k z hz
      refine ⟨?_, ?_, kk.destroyed, kk.freed⟩
      · dsimp only; rw [hr k hne]; exact kk.ref
      · dsimp only; rw [wa]; exact kk.weak
  · dsimp only at e ⊢; rw [List.length_set]; exact hlt h k e
  · dsimp only at hz ⊢
    rw [List.length_set]
    rcases get_set hz with ⟨rfl, rfl⟩ | ⟨_, hz⟩
    · rw [hk] at hp; exact I.wlt _ x p hx hp
    · exact I.wlt t z p hz hp

/-- the weak references of `w` that belong to an argument `WeakPtr` not yet stored -/
structure InvX (w : World) (q : Option Nat) : Prop where
  obj : ∀ (o : Nat) x, w.objs[o]? = some x → x.ref = refsTo o w.hs + (if x.kind.isToken then 1 else 0) ∧
    x.weak = watchers o w.objs + (if q = some o then 1 else 0) + (if x.ref = 0 then 0 else 1) ∧ (x.destroyed = true ↔ x.ref = 0) ∧ (x.freed = true ↔ x.weak = 0)
  lt : ∀ (h o : Nat), w.hs[h]? = some (some o) → o < w.objs.length
  wlt : ∀ (t : Nat) x p, w.objs[t]? = some x → x.kind = .token (some p) → p < w.objs.length
  qlt : ∀ p, q = some p → p < w.objs.length

theorem Inv.toX {w : World} (I : Inv w) : InvX w none :=
  ⟨fun o x h => let k := I.obj o x h; ⟨k.ref, by simpa using k.weak, k.destroyed, k.freed⟩, I.lt, I.wlt, fun p h => by cases h⟩

/-- a new object watching `q`, one reference handed to the user -/
theorem inv_new {w : World} {q : Option Nat} (I : InvX w q) (x : Obj) (h1 : x.ref = 1 + (if x.kind.isToken then 1 else 0)) (h2 : x.weak = 1) (h3 : x.destroyed = false) (h4 : x.freed = false)
    (h5 : ∀ p, x.kind = .token (some p) ↔ q = some p) (b : Bool) : Inv { w with objs := w.objs ++ [x], hs := w.hs ++ [some w.objs.length], mismatch := b } := by
  have r0 : refsTo w.objs.length w.hs = 0 := (sumBy_eq_zero _ _).2 fun x hx => by
    by_cases e : x = some w.objs.length
    · subst e
      obtain ⟨h', e'⟩ := List.getElem?_of_mem hx
      have := I.lt h' _ e'; omega
    · rw [if_neg e]
  have w0 : watchers w.objs.length w.objs = 0 := (sumBy_eq_zero _ _).2 fun x hx => by
    by_cases e : x.kind = .token (some w.objs.length)
    · obtain ⟨h', e'⟩ := List.getElem?_of_mem hx
      have := I.wlt h' x _ e' e; omega
    · rw [if_neg e]
  refine ⟨fun o y hy => ?_, fun h o e => ?_, fun t y p hy hk => ?_⟩
  · have wa : watchers o (w.objs ++ [x]) = watchers o w.objs + (if q = some o then 1 else 0) := by
      rw [watchers_append]; simp only [h5]
    dsimp only at hy
    by_cases e : o = w.objs.length
    · subst e
      simp at hy; subst hy
      refine ⟨?_, ?_, ?_, ?_⟩
      · dsimp only; rw [refsTo_append, if_pos rfl, r0, h1]
      · dsimp only; rw [wa, w0, h2, if_neg (fun e => by have := I.qlt _ e; omega), if_neg (by rw [h1]; omega)]
      · rw [h3, h1]; simp
      · rw [h4, h2]; simp
    · have hy' : w.objs[o]? = some y := by
        rcases Nat.lt_or_ge o w.objs.length with h | h
        · rwa [List.getElem?_append_left h] at hy
        · rw [List.getElem?_eq_none (by simp; omega)] at hy; cases hy
      obtain ⟨k1, k2, k3, k4⟩ := I.obj o y hy'
      refine ⟨?_, ?_, k3, k4⟩
      · dsimp only; rw [refsTo_append, if_neg (by simp; omega)]; exact k1
      · dsimp only; rw [wa]; exact k2
  · dsimp only at e ⊢
    rw [List.length_append]
    rcases Nat.lt_or_ge h w.hs.length with hh | hh
    · rw [List.getElem?_append_left hh] at e
      have := I.lt h o e; omega
    · rw [List.getElem?_append_right hh] at e
      have := List.mem_of_getElem? e
      simp at this; simp [this]
  · dsimp only at hy ⊢
    rw [List.length_append]
    rcases Nat.lt_or_ge t w.objs.length with hh | hh
    · rw [List.getElem?_append_left hh] at hy
      have := I.wlt t y p hy hk; omega
    · rw [List.getElem?_append_right hh] at hy
      have := List.mem_of_getElem? hy
      simp at this; rw [this] at hk
      have := I.qlt p ((h5 p).1 hk); omega

theorem wrapNew_eq (w : World) (k : Kind) :
    wrapNew w k = some { w with objs := w.objs ++ [⟨k, 2, 1, false, false, false⟩], hs := w.hs ++ [some w.objs.length] } := by
  unfold wrapNew addRef
  simp

theorem addWeak_invX {w : World} (I : Inv w) {h o : Nat} (e : w.hs[h]? = some (some o)) : ∃ w', addWeak w o = some w' ∧ InvX w' (some o) := by
  obtain ⟨x, hx, hr, hf⟩ := live I e
  refine ⟨{ w with objs := w.objs.set o { x with weak := x.weak + 1 } }, by unfold addWeak; rw [hx]; dsimp only; rw [if_neg (by rw [hf]; simp)], fun k z hz => ?_, fun h k e => ?_, fun t z p hz hp => ?_, fun p hp => ?_⟩
  · have wa := watchers_set (k := k) hx (y := { x with weak := x.weak + 1 }) rfl
    dsimp only at hz ⊢
    rw [wa]
    rcases get_set hz with ⟨rfl, rfl⟩ | ⟨hne, hz⟩
    · have kk := I.obj _ x hx
      refine ⟨kk.ref, ?_, kk.destroyed, ?_⟩
      · have := kk.weak; dsimp only; rw [if_pos rfl]; omega
      · dsimp only; rw [hf]; simp
    · have kk := I.obj k z hz
      refine ⟨kk.ref, ?_, kk.destroyed, kk.freed⟩
      rw [if_neg (by simp; omega)]; exact kk.weak
  · dsimp only at e ⊢; rw [List.length_set]; exact I.lt h k e
  · dsimp only at hz ⊢
    rw [List.length_set]
    rcases get_set hz with ⟨rfl, rfl⟩ | ⟨_, hz⟩
    · exact I.wlt _ x p hx hp
    · exact I.wlt t z p hz hp
  · cases hp; dsimp only; rw [List.length_set]; exact I.lt h o e

theorem refsTo_clear {hs : List (Option Nat)} {h o : Nat} (e : hs[h]? = some (some o)) :
    refsTo o (hs.set h none) + 1 = refsTo o hs ∧ ∀ k, k ≠ o → refsTo k (hs.set h none) = refsTo k hs := by
  constructor
  · have := sumBy_set (fun x : Option Nat => if x = some o then 1 else 0) hs h none _ e
    simp at this; exact this
  · intro k hk
    have := sumBy_set (fun x : Option Nat => if x = some k then 1 else 0) hs h none _ e
    have hk' : ¬ o = k := fun h => hk h.symm
    simp [hk'] at this; exact this

theorem lt_clear {w : World} (I : Inv w) (h : Nat) : ∀ (g k : Nat), (w.hs.set h none)[g]? = some (some k) → k < w.objs.length := by
  intro g k e
  rw [List.getElem?_set] at e
  split at e
  · split at e <;> cases e
  · exact I.lt g k e

/-- `Release` through a pointer of the user -/
theorem release_inv {w : World} (I : Inv w) {h o : Nat} (e : w.hs[h]? = some (some o)) : ∃ w', release w o = some w' ∧ Inv { w' with hs := w'.hs.set h none } := by
  obtain ⟨x, hx, hr, hf⟩ := live I e
  have kk := I.obj o x hx
  have r1 := kk.ref
  have r2 := kk.weak
  have r3 := kk.destroyed
  obtain ⟨c1, c2⟩ := refsTo_clear e
  have hl := I.lt h o e
  unfold release
  rw [hx]; dsimp only
  rw [if_neg (by rw [hf]; simp; omega)]
  rw [if_neg (by omega)] at r2
  by_cases one : x.ref = 1
  · rw [if_pos one]
    have nt : x.kind.isToken = false := by
      cases ht : x.kind.isToken with
      | false => rfl
      | true => rw [ht, if_pos rfl] at r1; have := refs_pos e; omega
    have dm : ∀ w, dropMembers w x.kind = some w := by
      intro w; unfold dropMembers
      cases hk : x.kind with
      | token p => rw [hk] at nt; cases nt
      | _ => rfl
    rw [dm]; dsimp only
    unfold releaseWeak; dsimp only
    rw [List.getElem?_set_self hl]; dsimp only
    rw [if_neg (by rw [hf]; simp; omega)]
    rw [nt] at r1
    by_cases ow : x.weak = 1
    · rw [if_pos ow]
      refine ⟨_, rfl, ?_⟩
      dsimp only; rw [List.set_set]
      exact inv_set I hx (y := { x with ref := 0, weak := 0, destroyed := true, freed := true }) rfl _ _ c2 (lt_clear I h) (by rw [nt]; dsimp only; simp at r1 ⊢; omega) (by dsimp only; rw [if_pos rfl]; omega) (by simp) (by simp)
    · rw [if_neg ow]
      refine ⟨_, rfl, ?_⟩
      dsimp only; rw [List.set_set]
      exact inv_set I hx (y := { x with ref := 0, weak := x.weak - 1, destroyed := true }) rfl _ _ c2 (lt_clear I h) (by rw [nt]; dsimp only; simp at r1 ⊢; omega) (by dsimp only; rw [if_pos rfl]; omega) (by simp) (by dsimp only; rw [hf]; simp; omega)
  · rw [if_neg one]
    refine ⟨_, rfl, ?_⟩
    have hd : x.destroyed = false := by
      cases hd : x.destroyed with
      | false => rfl
      | true => have := r3.1 hd; omega
    exact inv_set I hx (y := { x with ref := x.ref - 1 }) rfl _ _ c2 (lt_clear I h) (by dsimp only; omega) (by dsimp only; rw [if_neg (by omega)]; omega) (by dsimp only; rw [hd]; simp; omega) kk.freed

/-- the calls whose argument is a `RefPtr` that still points somewhere -/
def opOk (w : World) : Op → Prop
  | .newObj | .create | .fromNull => True
  | .fromPtr h | .copy h | .drop h | .cancel h | .isReq h => ∃ o, w.hs[h]? = some (some o)

theorem handle_of {w : World} {h o : Nat} (e : w.hs[h]? = some (some o)) : handle w h = some o := by unfold handle; rw [e]; rfl

theorem step_inv {w : World} (I : Inv w) (op : Op) (ok : opOk w op) : ∃ w' r, step w op = some (w', r) ∧ Inv w' := by
  cases op with
  | newObj => exact ⟨_, _, rfl, inv_new I.toX _ rfl rfl rfl rfl (by simp) _⟩
  | create => exact ⟨_, _, rfl, inv_new I.toX _ rfl rfl rfl rfl (by simp) _⟩
  | fromNull =>
    refine ⟨_, _, by unfold step; dsimp only; rw [wrapNew_eq]; rfl, inv_new I.toX _ rfl rfl rfl rfl (by simp) _⟩
  | fromPtr h =>
    obtain ⟨o, e⟩ := ok
    obtain ⟨w', ha, I'⟩ := addWeak_invX I e
    refine ⟨_, _, by unfold step; dsimp only; rw [handle_of e]; dsimp only; rw [ha]; dsimp only; rw [wrapNew_eq]; rfl, inv_new I' ⟨.token (some o), 2, 1, false, false, false⟩ rfl rfl rfl rfl (by simp) _⟩
  | copy h =>
    obtain ⟨o, e⟩ := ok
    obtain ⟨x, hx, hr, hf⟩ := live I e
    have kk := I.obj o x hx
    refine ⟨{ w with objs := w.objs.set o { x with ref := x.ref + 1 }, hs := w.hs ++ [some o] }, none, by unfold step; dsimp only; rw [handle_of e]; dsimp only; unfold addRef; rw [hx]; dsimp only; rw [if_neg (by rw [hf]; simp)]; rfl, ?_⟩
    have hd : x.destroyed = false := by
      cases hd : x.destroyed with
      | false => rfl
      | true => have := kk.destroyed.1 hd; omega
    refine inv_set I hx (y := { x with ref := x.ref + 1 }) rfl _ _ (fun k hk => by rw [refsTo_append, if_neg (by simp; omega)]; omega) (fun g k hg => ?_) (by dsimp only; rw [refsTo_append, if_pos rfl]; have := kk.ref; omega)
      (by have := kk.weak; dsimp only; rw [if_neg (by omega)] at this ⊢; exact this) (by dsimp only; rw [hd]; simp) kk.freed
    rcases Nat.lt_or_ge g w.hs.length with hh | hh
    · rw [List.getElem?_append_left hh] at hg; exact I.lt g k hg
    · rw [List.getElem?_append_right hh] at hg
      have := List.mem_of_getElem? hg
      simp at this; rw [this]; exact I.lt h o e
  | drop h =>
    obtain ⟨o, e⟩ := ok
    obtain ⟨w', hw, I'⟩ := release_inv I e
    exact ⟨_, _, by unfold step; dsimp only; rw [handle_of e]; dsimp only; rw [hw]; rfl, I'⟩
  | cancel h =>
    obtain ⟨o, e⟩ := ok
    obtain ⟨x, hx, hr, hf⟩ := live I e
    have kk := I.obj o x hx
    refine ⟨{ w with objs := w.objs.set o { x with cancel := true } }, none, by unfold step; dsimp only; rw [handle_of e]; dsimp only; rw [hx]; dsimp only; rw [if_neg (by rw [hf]; simp)], ?_⟩
    exact inv_set I hx (y := { x with cancel := true }) rfl _ _ (fun _ _ => rfl) I.lt kk.ref kk.weak kk.destroyed kk.freed
  | isReq h =>
    obtain ⟨o, e⟩ := ok
    obtain ⟨x, hx, hr, hf⟩ := live I e
    unfold step; dsimp only; rw [handle_of e]; dsimp only; rw [hx]; dsimp only; rw [if_neg (by rw [hf]; simp)]
    cases hk : x.kind with
    | plain => exact ⟨_, _, rfl, I⟩
    | source => exact ⟨_, _, rfl, I⟩
    | token p =>
      cases p with
      | none => exact ⟨_, _, rfl, I⟩
      | some p =>
        have pl := I.wlt o x p hx hk
        have hp := List.getElem?_eq_getElem pl
        have kp := I.obj p _ hp
        have hwt : 0 < watchers p w.objs := by
          have := le_sumBy (fun x : Obj => if x.kind = .token (some p) then 1 else 0) w.objs o _ hx
          simp [hk] at this; exact this
        have pf : (w.objs[p]).freed = false := by
          cases hpf : (w.objs[p]).freed with
          | false => rfl
          | true => have := kp.freed.1 hpf; have := kp.weak; omega
        dsimp only; rw [hp]; dsimp only; rw [if_neg (by rw [pf]; simp)]
        exact ⟨_, _, rfl, I⟩

/-! ## Kinds stay -/

def Ext (w w' : World) : Prop := ∀ (o : Nat) x, w.objs[o]? = some x → ∃ x', w'.objs[o]? = some x' ∧ x'.kind = x.kind

theorem Ext.refl (w : World) : Ext w w := fun _ x h => ⟨x, h, rfl⟩
theorem Ext.trans {a b c : World} (h : Ext a b) (h' : Ext b c) : Ext a c := fun o x hx =>
  let ⟨x', hx', e⟩ := h o x hx
  let ⟨x'', hx'', e'⟩ := h' o x' hx'
  ⟨x'', hx'', e'.trans e⟩

theorem ext_set {w w' : World} {o : Nat} {x y : Obj} (hx : w.objs[o]? = some x) (hk : y.kind = x.kind) (e : w'.objs = w.objs.set o y) : Ext w w' := by
  intro k z hz
  rw [e]
  by_cases h : o = k
  · subst h
    rw [hx] at hz; cases hz
    have hl : o < w.objs.length := (List.getElem?_eq_some_iff.1 hx).1
    exact ⟨y, List.getElem?_set_self hl, hk⟩
  · exact ⟨z, by rw [List.getElem?_set_ne h]; exact hz, rfl⟩

theorem ext_set' {w w' : World} {o : Nat} {x y : Obj} (hx : w.objs[o]? = some x) (e : w'.objs = w.objs.set o y) (hk : y.kind = x.kind) : Ext w w' := ext_set hx hk e

theorem ext_append {w w' : World} {y : Obj} (e : w'.objs = w.objs ++ [y]) : Ext w w' := by
  intro k z hz
  rw [e]
  have hl : k < w.objs.length := (List.getElem?_eq_some_iff.1 hz).1
  exact ⟨z, by rw [List.getElem?_append_left hl]; exact hz, rfl⟩

theorem addRef_ext {w w' : World} {o : Nat} (h : addRef w o = some w') : Ext w w' := by
  unfold addRef at h
  split at h
  · cases h
  · split at h
    · cases h
    · cases h; refine ext_set' (by assumption) rfl ?_; rfl

theorem addWeak_ext {w w' : World} {o : Nat} (h : addWeak w o = some w') : Ext w w' := by
  unfold addWeak at h
  split at h
  · cases h
  · split at h
    · cases h
    · cases h; refine ext_set' (by assumption) rfl ?_; rfl

theorem releaseWeak_ext {w w' : World} {o : Nat} (h : releaseWeak w o = some w') : Ext w w' := by
  unfold releaseWeak at h
  split at h
  · cases h
  · split at h
    · cases h
    · split at h
      · cases h; refine ext_set' (by assumption) rfl ?_; rfl
      · cases h; refine ext_set' (by assumption) rfl ?_; rfl

theorem dropMembers_ext {w w' : World} {k : Kind} (h : dropMembers w k = some w') : Ext w w' := by
  unfold dropMembers at h
  split at h
  · exact releaseWeak_ext h
  · cases h; exact .refl _

theorem release_ext {w w' : World} {o : Nat} (h : release w o = some w') : Ext w w' := by
  unfold release at h
  split at h
  · cases h
  · rename_i x hx
    split at h
    · cases h
    · split at h
      · split at h
        · cases h
        · rename_i w1 hd
          exact Ext.trans (ext_set' (w' := { w with objs := w.objs.set o { x with ref := 0, destroyed := true } }) hx rfl rfl) ((dropMembers_ext hd).trans (releaseWeak_ext h))
      · cases h; refine ext_set' (by assumption) rfl ?_; rfl

theorem step_ext {w w' : World} {op : Op} {r : Option Bool} (h : step w op = some (w', r)) : Ext w w' := by
  cases op with
  | newObj => cases h; exact ext_append rfl
  | create => cases h; exact ext_append rfl
  | fromNull => unfold step at h; dsimp only at h; rw [wrapNew_eq] at h; cases h; exact ext_append rfl
  | fromPtr i =>
    unfold step at h; dsimp only at h
    split at h
    · cases h
    · split at h
      · cases h
      · rename_i ha
        rw [wrapNew_eq] at h; cases h
        exact (addWeak_ext ha).trans (ext_append rfl)
  | copy i =>
    unfold step at h; dsimp only at h
    split at h
    · cases h
    · rename_i o _
      cases ha : addRef w o with
      | none => rw [ha] at h; cases h
      | some w1 => rw [ha] at h; cases h; exact fun k z hz => addRef_ext ha k z hz
  | drop i =>
    unfold step at h; dsimp only at h
    split at h
    · cases h
    · rename_i o _
      cases ha : release w o with
      | none => rw [ha] at h; cases h
      | some w1 => rw [ha] at h; cases h; exact fun k z hz => release_ext ha k z hz
  | cancel i =>
    unfold step at h; dsimp only at h
    split at h
    · cases h
    · split at h
      · cases h
      · split at h
        · cases h
        · cases h; refine ext_set' (by assumption) rfl ?_; rfl
  | isReq i =>
    unfold step at h; dsimp only at h
    split at h
    · cases h
    · split at h
      · cases h
      · split at h
        · cases h
        · split at h
          · cases h; exact .refl _
          · cases h; exact .refl _
          · cases h; exact .refl _
          · split at h
            · cases h
            · split at h
              · cases h
              · cases h; exact .refl _

/-! ## The property -/

/-- a history of calls from `w` to `w'`, each on `RefPtr`s that point somewhere -/
inductive Hist (w : World) : World → Prop
  | nil : Hist w w
  | call {w1 w2 : World} {op : Op} {r : Option Bool} : Hist w w1 → opOk w1 op → step w1 op = some (w2, r) → Hist w w2

theorem hist_inv {w w' : World} (I : Inv w) (h : Hist w w') : Inv w' := by
  induction h with
  | nil => exact I
  | call _ ok hs ih =>
    obtain ⟨w2, r, e, I2⟩ := step_inv ih _ ok
    rw [hs] at e; cases e; exact I2

theorem hist_ext {w w' : World} (h : Hist w w') : Ext w w' := by
  induction h with
  | nil => exact .refl _
  | call _ _ hs ih => exact ih.trans (step_ext hs)

/-- what a call of `FromPtr` does -/
theorem fromPtr_new {w w1 : World} {h o : Nat} {r : Option Bool} (e : w.hs[h]? = some (some o)) (hs : step w (.fromPtr h) = some (w1, r)) :
    ∃ x, w1.objs[w.objs.length]? = some x ∧ x.kind = .token (some o) ∧ w1.hs = w.hs ++ [some w.objs.length] := by
  unfold step at hs; dsimp only at hs
  rw [handle_of e] at hs; dsimp only at hs
  split at hs
  · cases hs
  · rename_i w2 ha
    rw [wrapNew_eq] at hs
    have hl : w2.objs.length = w.objs.length ∧ w2.hs = w.hs := by
      unfold addWeak at ha
      split at ha
      · cases ha
      · split at ha
        · cases ha
        · cases ha; exact ⟨List.length_set, rfl⟩
    cases hs
    refine ⟨⟨.token (some o), 2, 1, false, false, false⟩, ?_, rfl, ?_⟩
    · dsimp only; rw [← hl.1, List.getElem?_append_right (Nat.le_refl _)]; simp
    · dsimp only; rw [hl.1, hl.2]

/-- No history of calls uses freed memory or drops a count below zero. -/
theorem C75_safe {w : World} (h : Hist {} w) (op : Op) (ok : opOk w op) : ∃ w' r, step w op = some (w', r) :=
  let ⟨w', r, e, _⟩ := step_inv (hist_inv inv_init h) op ok
  ⟨w', r, e⟩

/-- A token made by `FromPtr` for a user's object answers `true` exactly when the user has no `RefPtr` to that object any more, and then the object has been destroyed. Partial: the token, once dropped, should be freed too (`C75_leak_fails`). -/
theorem C75_reports_partial {w w1 w2 : World} {h o g : Nat} {r : Option Bool} {x : Obj} (h0 : Hist {} w) (e : w.hs[h]? = some (some o)) (ho : w.objs[o]? = some x)
    (hk : x.kind = .plain ∨ x.kind = .source) (hs : step w (.fromPtr h) = some (w1, r)) (h1 : Hist w1 w2) (hg : w2.hs[g]? = some (some w.objs.length)) :
    ∃ b, step w2 (.isReq g) = some (w2, some b) ∧ (b = true ↔ ∀ i : Nat, w2.hs[i]? ≠ some (some o)) ∧
      ∃ y, w2.objs[o]? = some y ∧ (b = true ↔ y.destroyed = true) ∧ y.freed = false := by
  have I0 := hist_inv inv_init h0
  obtain ⟨t, ht, htk, _⟩ := fromPtr_new e hs
  have hw1 : Hist {} w1 := .call (op := .fromPtr h) h0 ⟨o, e⟩ hs
  have I2 := hist_inv (hist_inv inv_init hw1) h1
  obtain ⟨t2, ht2, hk2⟩ := hist_ext h1 _ _ ht
  obtain ⟨y, hy, hyk⟩ := ((step_ext hs).trans (hist_ext h1)) o x ho
  have k := I2.obj o y hy
  have kt := live I2 hg
  obtain ⟨t3, ht3, _, tf⟩ := kt
  rw [ht2] at ht3; cases ht3
  have hwt : 0 < watchers o w2.objs := by
    have := le_sumBy (fun x : Obj => if x.kind = .token (some o) then 1 else 0) w2.objs _ _ ht2
    simp [hk2, htk] at this; exact this
  have yf : y.freed = false := by
    cases hf : y.freed with
    | false => rfl
    | true => have := k.freed.1 hf; have := k.weak; omega
  have nt : y.kind.isToken = false := by rw [hyk]; rcases hk with hk | hk <;> rw [hk] <;> rfl
  have kr := k.ref
  rw [nt] at kr; simp at kr
  refine ⟨y.ref == 0, ?_, ?_, y, hy, ?_, yf⟩
  · unfold step; dsimp only; rw [handle_of hg]; dsimp only; rw [ht2]; dsimp only; rw [if_neg (by rw [tf]; simp), hk2, htk]; dsimp only
    rw [hy]; dsimp only; rw [if_neg (by rw [yf]; simp)]
  · rw [beq_iff_eq, kr]
    constructor
    · intro z i hi
      have := refs_pos hi; omega
    · intro z
      refine (sumBy_eq_zero _ _).2 fun v hv => ?_
      by_cases hvo : v = some o
      · subst hvo
        obtain ⟨i, hi⟩ := List.getElem?_of_mem hv
        exact absurd hi (z i)
      · rw [if_neg hvo]
  · rw [beq_iff_eq]; exact k.destroyed.symm

/-- The token `FromPtr` made is never destroyed or freed, whatever the user does afterwards - also when no `RefPtr` to it is left - and the memory of the object it watches is never freed. -/
theorem C75_leak_fails {w w1 w2 : World} {h o : Nat} {r : Option Bool} (h0 : Hist {} w) (e : w.hs[h]? = some (some o)) (hs : step w (.fromPtr h) = some (w1, r)) (h1 : Hist w1 w2) :
    (∃ t, w2.objs[w.objs.length]? = some t ∧ t.destroyed = false ∧ t.freed = false) ∧ ∃ y, w2.objs[o]? = some y ∧ y.freed = false := by
  obtain ⟨t, ht, htk, _⟩ := fromPtr_new e hs
  have hw1 : Hist {} w1 := .call (op := .fromPtr h) h0 ⟨o, e⟩ hs
  have I2 := hist_inv (hist_inv inv_init hw1) h1
  obtain ⟨t2, ht2, hk2⟩ := hist_ext h1 _ _ ht
  have k := I2.obj _ t2 ht2
  have kr := k.ref
  have kw := k.weak
  have tt : t2.kind.isToken = true := by rw [hk2, htk]; rfl
  rw [tt, if_pos rfl] at kr
  rw [if_neg (by omega)] at kw
  have ol := I2.wlt _ t2 o ht2 (hk2.trans htk)
  have ko := I2.obj o _ (List.getElem?_eq_getElem ol)
  have hwt : 0 < watchers o w2.objs := by
    have := le_sumBy (fun x : Obj => if x.kind = .token (some o) then 1 else 0) w2.objs _ _ ht2
    simp [hk2, htk] at this; exact this
  refine ⟨⟨t2, ht2, ?_, ?_⟩, _, List.getElem?_eq_getElem ol, ?_⟩
  · cases hd : t2.destroyed with
    | false => rfl
    | true => have := k.destroyed.1 hd; omega
  · cases hd : t2.freed with
    | false => rfl
    | true => have := k.freed.1 hd; omega
  · cases hd : (w2.objs[o]).freed with
    | false => rfl
    | true => have := ko.freed.1 hd; have := ko.weak; omega

/-- A user's object or a `CancellationTokenSource` is destroyed exactly when the user's last `RefPtr` to it has gone; if `FromPtr` was never used for it, it is then freed as well. -/
theorem C75_balanced {w : World} {o : Nat} {x : Obj} (h0 : Hist {} w) (ho : w.objs[o]? = some x) (hk : x.kind = .plain ∨ x.kind = .source) :
    (x.destroyed = true ↔ ∀ i : Nat, w.hs[i]? ≠ some (some o)) ∧
      ((∀ (t : Nat) y, w.objs[t]? = some y → y.kind ≠ .token (some o)) → (x.freed = true ↔ x.destroyed = true)) := by
  have I := hist_inv inv_init h0
  have k := I.obj o x ho
  have nt : x.kind.isToken = false := by rcases hk with hk | hk <;> rw [hk] <;> rfl
  have kr := k.ref
  rw [nt] at kr; simp at kr
  refine ⟨?_, fun hw => ?_⟩
  · rw [k.destroyed, kr]
    constructor
    · intro z i hi
      have := refs_pos hi; omega
    · intro z
      refine (sumBy_eq_zero _ _).2 fun v hv => ?_
      by_cases hvo : v = some o
      · subst hvo
        obtain ⟨i, hi⟩ := List.getElem?_of_mem hv
        exact absurd hi (z i)
      · rw [if_neg hvo]
  · have w0 : watchers o w.objs = 0 := by
      refine (sumBy_eq_zero _ _).2 fun v hv => ?_
      obtain ⟨i, hi⟩ := List.getElem?_of_mem hv
      rw [if_neg (hw i v hi)]
    have kw := k.weak
    rw [w0] at kw
    rw [k.freed, k.destroyed, kw]
    split <;> simp_all

/-- A source tells its own flag: `Cancel` through any of its `RefPtr`s is seen through every other. -/
theorem C75_source {w w1 : World} {h g o : Nat} {x : Obj} (h0 : Hist {} w) (e : w.hs[h]? = some (some o)) (eg : w.hs[g]? = some (some o)) (ho : w.objs[o]? = some x) (hk : x.kind = .source)
    (hs : step w (.cancel h) = some (w1, none)) : step w1 (.isReq g) = some (w1, some true) := by
  obtain ⟨x', hx', _, hf⟩ := live (hist_inv inv_init h0) e
  rw [ho] at hx'; cases hx'
  have hl : o < w.objs.length := (List.getElem?_eq_some_iff.1 ho).1
  unfold step at hs; dsimp only at hs
  rw [handle_of e] at hs; dsimp only at hs
  rw [ho] at hs; dsimp only at hs
  rw [if_neg (by rw [hf]; simp)] at hs
  cases hs
  unfold step; dsimp only
  rw [handle_of (w := { w with objs := w.objs.set o { x with cancel := true } }) eg]; dsimp only
  rw [List.getElem?_set_self hl]; dsimp only
  rw [if_neg (by rw [hf]; simp), hk]

/-- a token for no object at all says `true` from the start -/
theorem C75_null {w w1 w2 : World} {g : Nat} {r : Option Bool} (h0 : Hist {} w) (hs : step w .fromNull = some (w1, r)) (h1 : Hist w1 w2) (hg : w2.hs[g]? = some (some w.objs.length)) :
    step w2 (.isReq g) = some (w2, some true) := by
  have hw1 : Hist {} w1 := .call (op := .fromNull) h0 trivial hs
  have I2 := hist_inv (hist_inv inv_init hw1) h1
  unfold step at hs; dsimp only at hs; rw [wrapNew_eq] at hs; cases hs
  obtain ⟨t2, ht2, hk2⟩ := hist_ext h1 w.objs.length ⟨.token none, 2, 1, false, false, false⟩ (by simp)
  obtain ⟨t3, ht3, _, tf⟩ := live I2 hg
  rw [ht2] at ht3; cases ht3
  unfold step; dsimp only; rw [handle_of hg]; dsimp only; rw [ht2]; dsimp only; rw [if_neg (by rw [tf]; simp), hk2]

/-! ## Concrete histories -/

def run (w : World) : List Op → Option (World × List (Option Bool))
  | [] => some (w, [])
  | op :: ops =>
    match step w op with
    | none => none
    | some (w, r) => (run w ops).map fun p => (p.1, r :: p.2)

/-- an object, its token, the token asked, the object dropped, the token asked, the token dropped: the token and the memory of the object stay -/
example : run {} [.newObj, .fromPtr 0, .isReq 1, .drop 0, .isReq 1, .drop 1] =
    some (⟨[⟨.plain, 0, 1, false, true, false⟩, ⟨.token (some 0), 1, 1, false, false, false⟩], [none, none], false⟩, [none, none, some false, none, some true, none]) := by decide +kernel

/-- The object of `CancellationTokenSource::Create` comes from `new`, but goes to `free`: the two do not belong together. -/
theorem C75_mismatch_fails : run {} [.create, .isReq 0, .cancel 0, .isReq 0, .drop 0] = some (⟨[⟨.source, 0, 0, true, true, true⟩], [none], true⟩, [none, some false, none, some true, none]) := by
  decide +kernel

end Verif.TokenFrom
