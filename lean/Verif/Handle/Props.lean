import Verif.Handle.Model
import Verif.Common.Sum
/-!
C70: handles in wrappers are closed exactly once.
-/
namespace Verif.Handle
open Verif.Common

/-- How many wrappers hold the handle `x`. -/
def holders (x : Nat) (w : W) : Nat := sumBy (fun o => if o = some x then 1 else 0) w.objs

/-- Every open handle has exactly one owner: one wrapper, the user, or a temporary of the running operation (`f`).
Every wrapper and the user own only open handles, predefined handles or the invalid value. -/
structure InvF (T : Traits) (f : Nat → Nat) (w : W) : Prop where
  own : ∀ x, x ≠ T.inv → T.pseudo x = false → w.os.count x = w.user.count x + holders x w + f x
  one : ∀ x, w.os.count x ≤ 1
  noInv : T.inv ∉ w.os
  noPs : ∀ x, T.pseudo x = true → x ∉ w.os
  userOk : ∀ x ∈ w.user, x ≠ T.inv ∧ T.pseudo x = false

/-- The invariant between operations. -/
def Inv (T : Traits) (w : W) : Prop := InvF T (fun _ => 0) w

theorem fld_some {w : W} {i v : Nat} : fld w i = some v ↔ w.objs[i]? = some (some v) := by
  unfold fld
  cases h : w.objs[i]? with
  | none => simp
  | some o => cases o <;> simp

theorem holders_put {w : W} {i v c : Nat} (h : fld w i = some c) (x : Nat) :
    holders x (put w i v) + (if c = x then 1 else 0) = holders x w + (if v = x then 1 else 0) := by
  have := sumBy_set (fun o : Option Nat => if o = some x then 1 else 0) w.objs i (some v) (some c) (fld_some.1 h)
  simpa [holders, put] using this

theorem fld_put {w : W} {i v c : Nat} (h : fld w i = some c) (k : Nat) :
    fld (put w i v) k = if k = i then some v else fld w k := by
  have hl : i < w.objs.length := (List.getElem?_eq_some_iff.1 (fld_some.1 h)).1
  unfold fld put
  by_cases hk : k = i
  · subst hk; simp [hl]
  · simp [hk, List.getElem?_set, Ne.symm hk]

theorem holders_pos {w : W} {i c : Nat} (h : fld w i = some c) : 0 < holders c w := by
  have := le_sumBy (fun o : Option Nat => if o = some c then 1 else 0) w.objs i _ (fld_some.1 h)
  simp at this; exact this

theorem held_open {T : Traits} {f : Nat → Nat} {w : W} (hi : InvF T f w) {i c : Nat} (h : fld w i = some c) (hc : c ≠ T.inv)
    (hp : T.pseudo c = false) : c ∈ w.os ∧ c ∉ w.user ∧ holders c w = 1 ∧ f c = 0 := by
  have := hi.own c hc hp; have := hi.one c; have := holders_pos h
  refine ⟨List.count_pos_iff.1 (by omega), fun hm => ?_, by omega, by omega⟩
  have := List.count_pos_iff.2 hm; omega

/-- the effect of `Release` on a good world -/
theorem release_ok {T : Traits} {f : Nat → Nat} {w : W} (hi : InvF T f w) {i c : Nat} (h : fld w i = some c) :
    ∃ w', release T i w = some w' ∧ InvF T f w' ∧ fld w' i = some T.inv ∧ (∀ k, k ≠ i → fld w' k = fld w k) ∧
      w'.user = w.user ∧ (c ≠ T.inv → T.pseudo c = false → w'.os = w.os.erase c) ∧
      ((c = T.inv ∨ T.pseudo c = true) → w'.os = w.os) ∧ w'.objs = w.objs.set i (some T.inv) := by
  by_cases hc : c = T.inv
  · refine ⟨w, by simp [release, h, hc], hi, by rw [h, hc], fun _ _ => rfl, rfl, fun h => absurd hc h, fun _ => rfl, ?_⟩
    have := fld_some.1 h
    subst hc
    obtain ⟨hl, he⟩ := List.getElem?_eq_some_iff.1 this
    rw [← he, List.set_getElem_self]
  · by_cases hp : T.pseudo c
    · refine ⟨put w i T.inv, by simp [release, h, hc, osClose, hp], ⟨fun x hx hxp => ?_, hi.one, hi.noInv, hi.noPs, hi.userOk⟩,
        by rw [fld_put h]; simp, fun k hk => by rw [fld_put h]; simp [hk], rfl, fun _ h => by simp [hp] at h, fun _ => rfl, rfl⟩
      have := holders_put (v := T.inv) h x
      have := hi.own x hx hxp
      have h1 : c ≠ x := by rintro rfl; simp [hp] at hxp
      simp only [h1, Ne.symm hx, if_false] at *
      simp [put] at *; omega
    · simp only [Bool.not_eq_true] at hp
      obtain ⟨hm, hu, h1, hf0⟩ := held_open hi h hc hp
      refine ⟨put { w with os := w.os.erase c } i T.inv, by simp [release, h, hc, osClose, hp, hm],
        ⟨fun x hx hxp => ?_, fun x => ?_, fun hx => hi.noInv (List.mem_of_mem_erase hx),
         fun x hx hx' => hi.noPs x hx (List.mem_of_mem_erase hx'), hi.userOk⟩,
        by rw [fld_put (w := { w with os := w.os.erase c }) h]; simp,
        fun k hk => by rw [fld_put (w := { w with os := w.os.erase c }) h]; simp [hk, fld], rfl, fun _ _ => rfl, fun h => by simp [hc, hp] at h, rfl⟩
      · have h2 := holders_put (w := { w with os := w.os.erase c }) (v := T.inv) h x
        have h3 := hi.own x hx hxp
        have h4 : holders x { w with os := w.os.erase c } = holders x w := rfl
        simp only [put, List.count_erase] at *
        by_cases hcx : c = x
        · subst hcx
          have := List.count_pos_iff.2 hm
          simp [Ne.symm hx] at *; omega
        · simp [hcx, Ne.symm hx, Ne.symm hcx] at *; omega
      · have := hi.one x
        have : (w.os.erase c).count x ≤ w.os.count x := List.Sublist.count_le x List.erase_sublist
        simp only [put]; omega

/-- temporaries that own one handle -/
def tmp (h : Nat) : Nat → Nat := fun x => if h = x then 1 else 0

/-- moving a temporary into a wrapper that holds nothing -/
theorem put_ok {T : Traits} {w : W} {h i c : Nat} (hi : InvF T (tmp h) w) (hf : fld w i = some c)
    (hc : c = T.inv ∨ T.pseudo c = true) : Inv T (put w i h) := by
  refine ⟨fun x hx hxp => ?_, hi.one, hi.noInv, hi.noPs, hi.userOk⟩
  have h1 := holders_put (v := h) hf x
  have h2 := hi.own x hx hxp
  have h3 : c ≠ x := by rintro rfl; rcases hc with hc | hc <;> simp_all
  simp only [h3, if_false, tmp] at *
  simp only [put] at *; omega

/-- `Attach` of a temporary -/
theorem attach_ok {T : Traits} {w : W} {h i c : Nat} (hi : InvF T (tmp h) w) (hf : fld w i = some c) :
    ∃ w', attach T i h w = some w' ∧ Inv T w' ∧ fld w' i = some h ∧ (∀ k, k ≠ i → fld w' k = fld w k) ∧
      w'.user = w.user ∧ (c ≠ h → c ≠ T.inv → T.pseudo c = false → w'.os = w.os.erase c) ∧
      ((c = h ∨ c = T.inv ∨ T.pseudo c = true) → w'.os = w.os) := by
  by_cases hc : c = h
  · subst hc
    refine ⟨w, by simp [attach, hf], ⟨fun x hx hxp => ?_, hi.one, hi.noInv, hi.noPs, hi.userOk⟩, hf, fun _ _ => rfl,
      rfl, fun h => absurd rfl h, fun _ => rfl⟩
    have h2 := hi.own x hx hxp
    by_cases hcx : c = x
    · subst hcx
      have := (held_open hi hf hx hxp).2.2.2
      simp [tmp] at this
    · simpa [tmp, hcx] using h2
  · obtain ⟨w', hr, hi', hf', hk, hu, ho1, ho2, hobj⟩ := release_ok hi hf
    refine ⟨put w' i h, by simp [attach, hf, hc, hr], put_ok hi' hf' (.inl rfl), by rw [fld_put hf']; simp,
      fun k hki => by rw [fld_put hf']; simp [hki, hk k hki], by simpa [put] using hu, ?_, ?_⟩
    · intro _ h2 h3; simpa [put] using ho1 h2 h3
    · intro h2; simpa [put] using ho2 (by simpa [hc] using h2)

theorem mk_ok {T : Traits} {w : W} {h : Nat} (hi : InvF T (tmp h) w) : Inv T (mk h w) := by
  refine ⟨fun x hx hxp => ?_, hi.one, hi.noInv, hi.noPs, hi.userOk⟩
  have h2 := hi.own x hx hxp
  simp only [mk, holders, sumBy_append, sumBy_cons, sumBy_nil, tmp, Option.some.injEq] at *
  omega

theorem tmp_inv {T : Traits} {w : W} {h : Nat} (hh : h = T.inv ∨ T.pseudo h = true) (hi : Inv T w) :
    InvF T (tmp h) w := by
  refine ⟨fun x hx hxp => ?_, hi.one, hi.noInv, hi.noPs, hi.userOk⟩
  have h3 : h ≠ x := by rintro rfl; rcases hh with hc | hc <;> simp_all
  simpa [tmp, h3] using hi.own x hx hxp

theorem detach_ok {T : Traits} {w : W} (hi : Inv T w) {i c : Nat} (hf : fld w i = some c) :
    detach T i w = some (c, put w i T.inv) ∧ InvF T (tmp c) (put w i T.inv) := by
  refine ⟨by simp [detach, hf], fun x hx hxp => ?_, hi.one, hi.noInv, hi.noPs, hi.userOk⟩
  have h1 := holders_put (v := T.inv) hf x
  have h2 := hi.own x hx hxp
  simp only [Ne.symm hx, if_false] at h1
  simp only [tmp, put] at *; omega

theorem clone_ok {T : Traits} {w : W} (hi : Inv T w) {i c : Nat} (hf : fld w i = some c) {dup : Option Nat}
    (hd : ∀ n, dup = some n → Fresh T w n) :
    ∃ p, clone T i dup w = some p ∧ InvF T (tmp p.1) p.2 ∧ p.2.objs = w.objs ∧ p.2.user = w.user ∧
      (∀ x ∈ w.os, x ∈ p.2.os) := by
  by_cases hc : c = T.inv
  · exact ⟨(T.inv, w), by simp [clone, hf, hc], tmp_inv (.inl rfl) hi, rfl, rfl, fun _ h => h⟩
  · by_cases hp : T.pseudo c
    · exact ⟨(c, w), by simp [clone, hf, hc, hp], tmp_inv (.inr hp) hi, rfl, rfl, fun _ h => h⟩
    · cases dup with
      | none => exact ⟨(T.inv, w), by simp [clone, hf, hc, hp], tmp_inv (.inl rfl) hi, rfl, rfl, fun _ h => h⟩
      | some n =>
        obtain ⟨h1, h2, h3⟩ := hd n rfl
        refine ⟨(n, { w with os := n :: w.os }), by simp [clone, hf, hc, hp],
          ⟨fun x hx hxp => ?_, fun x => ?_, ?_, ?_, hi.userOk⟩, rfl, rfl, fun _ h => List.mem_cons_of_mem _ h⟩
        · have := hi.own x hx hxp
          simp only [tmp, holders, List.count_cons, beq_iff_eq] at *; omega
        · have := hi.one x
          simp only [List.count_cons, beq_iff_eq]
          split
          · subst x; have := List.count_eq_zero.2 h3; omega
          · omega
        · simp [Ne.symm h1, hi.noInv]
        · intro x hx; simp [hi.noPs x hx]; rintro rfl; simp [h2] at hx

theorem user_tmp {T : Traits} {w : W} {h : Nat} (hi : Inv T w) (hm : Mine T w h) :
    InvF T (tmp h) { w with user := w.user.erase h } := by
  refine ⟨fun x hx hxp => ?_, hi.one, hi.noInv, hi.noPs, fun x hx => hi.userOk x (List.mem_of_mem_erase hx)⟩
  have h1 := hi.own x hx hxp
  have h2 : holders x { w with user := w.user.erase h } = holders x w := rfl
  simp only [List.count_erase, tmp, h2]
  by_cases hhx : h = x
  · subst hhx
    rcases hm with hm | hm | hm
    · have := List.count_pos_iff.2 hm; simp only [beq_self_eq_true, if_true]; omega
    · simp [hm] at hxp
    · exact absurd hm hx
  · have : ¬ x = h := fun e => hhx e.symm
    simp [hhx]; omega

theorem exec_ok {T : Traits} {w : W} (op : Op) (hi : Inv T w) (hok : Ok T w op) :
    ∃ w', exec T op w = some w' ∧ Inv T w' := by
  cases op with
  | sysOpen h =>
    obtain ⟨h1, h2, h3⟩ := hok
    refine ⟨_, rfl, fun x hx hxp => ?_, fun x => ?_, ?_, ?_, ?_⟩
    · have := hi.own x hx hxp
      simp only [holders, List.count_cons, beq_iff_eq] at *; omega
    · have := hi.one x
      simp only [List.count_cons, beq_iff_eq]
      split
      · subst x; have := List.count_eq_zero.2 h3; omega
      · omega
    · simp [Ne.symm h1, hi.noInv]
    · intro x hx; simp [hi.noPs x hx]; rintro rfl; simp [h2] at hx
    · intro x hx
      rcases List.mem_cons.1 hx with rfl | hx
      · exact ⟨h1, h2⟩
      · exact hi.userOk x hx
  | userClose h =>
    obtain ⟨h1, h2⟩ := hi.userOk h hok
    have h3 := hi.own h h1 h2
    have h4 := List.count_pos_iff.2 hok
    have h5 : h ∈ w.os := List.count_pos_iff.1 (by omega)
    refine ⟨{ w with os := w.os.erase h, user := w.user.erase h }, by simp [exec, osClose, h2, h5],
      fun x hx hxp => ?_, fun x => ?_, fun hx => hi.noInv (List.mem_of_mem_erase hx),
      fun x hx hx' => hi.noPs x hx (List.mem_of_mem_erase hx'), fun x hx => hi.userOk x (List.mem_of_mem_erase hx)⟩
    · have := hi.own x hx hxp
      simp only [List.count_erase, holders] at *
      by_cases hhx : h = x
      · subst hhx; simp only [beq_self_eq_true, if_true]; omega
      · simp [hhx]; omega
    · have := hi.one x
      have : (w.os.erase h).count x ≤ w.os.count x := List.Sublist.count_le x List.erase_sublist
      simp only []; omega
  | newEmpty => exact ⟨_, rfl, mk_ok (tmp_inv (.inl rfl) hi)⟩
  | newRaw h => exact ⟨_, rfl, mk_ok (user_tmp hi hok)⟩
  | newCopy j dup =>
    obtain ⟨c, hc⟩ := Option.isSome_iff_exists.1 hok.1
    obtain ⟨p, h1, h2, _⟩ := clone_ok hi hc hok.2
    exact ⟨mk p.1 p.2, by simp [exec, h1], mk_ok h2⟩
  | newMove j =>
    obtain ⟨c, hc⟩ := Option.isSome_iff_exists.1 hok
    obtain ⟨h1, h2⟩ := detach_ok hi hc
    exact ⟨mk c (put w j T.inv), by simp [exec, h1], mk_ok h2⟩
  | destroy i =>
    obtain ⟨c, hc⟩ := Option.isSome_iff_exists.1 hok
    obtain ⟨w', hr, hi', hf', -⟩ := release_ok hi hc
    refine ⟨{ w' with objs := w'.objs.set i none }, by simp [exec, hr], fun x hx hxp => ?_, hi'.one, hi'.noInv, hi'.noPs, hi'.userOk⟩
    have h1 := sumBy_set (fun o : Option Nat => if o = some x then 1 else 0) w'.objs i none _ (fld_some.1 hf')
    have h2 := hi'.own x hx hxp
    simp only [Option.some.injEq, Ne.symm hx, if_false, reduceCtorEq] at h1
    simp only [holders] at *; omega
  | attach i h =>
    obtain ⟨hs, hm⟩ := hok
    obtain ⟨c, hc⟩ := Option.isSome_iff_exists.1 hs
    by_cases hch : c = h
    · subst hch
      exact ⟨w, by simp [exec, attach, hc], hi⟩
    · have hm' : Mine T w h := hm.resolve_right (by simp [hc, hch])
      have h1 := user_tmp hi hm'
      obtain ⟨w', hr, hi', -⟩ := attach_ok (i := i) (c := c) h1 hc
      refine ⟨w', ?_, hi'⟩
      -- giving up the raw handle first or last makes no difference
      have key : ∀ (u : List Nat), attach T i h { w with user := u } =
          (attach T i h w).map fun w' => { w' with user := u } := by
        intro u
        simp only [attach, fld, release, osClose, put]
        split
        · rfl
        · split
          · rfl
          · split
            · rfl
            · split
              · rfl
              · split
                · rfl
                · split <;> rfl
      rw [key] at hr
      have hu : ∀ w₁, attach T i h w = some w₁ → w₁.user = w.user := by
        intro w₁ h₁
        have := key w.user
        rw [show ({ w with user := w.user } : W) = w from rfl, h₁] at this
        simp at this
        rw [this]
      cases ha : attach T i h w with
      | none => simp [ha] at hr
      | some w₁ =>
        simp [ha] at hr
        simp [exec, ha, hc, hch, hu w₁ ha, hr]
  | detach i =>
    obtain ⟨c, hc⟩ := Option.isSome_iff_exists.1 hok
    obtain ⟨h1, h2⟩ := detach_ok hi hc
    by_cases hp : c = T.inv ∨ T.pseudo c = true
    · refine ⟨put w i T.inv, by simp [exec, h1, hp], fun x hx hxp => ?_, h2.one, h2.noInv, h2.noPs, h2.userOk⟩
      have h3 : c ≠ x := by rintro rfl; rcases hp with hc | hc <;> simp_all
      simpa [tmp, h3] using h2.own x hx hxp
    · refine ⟨{ put w i T.inv with user := c :: (put w i T.inv).user }, by simp [exec, h1, hp], fun x hx hxp => ?_, h2.one,
        h2.noInv, h2.noPs, ?_⟩
      · have := h2.own x hx hxp
        simp only [tmp, List.count_cons, beq_iff_eq, holders] at *; omega
      · intro x hx
        rcases List.mem_cons.1 hx with rfl | hx
        · simpa using hp
        · exact h2.userOk x hx
  | release i =>
    obtain ⟨c, hc⟩ := Option.isSome_iff_exists.1 hok
    obtain ⟨w', hr, hi', -⟩ := release_ok hi hc
    exact ⟨w', hr, hi'⟩
  | out i h =>
    obtain ⟨hs, h1, h2, h3⟩ := hok
    obtain ⟨c, hc⟩ := Option.isSome_iff_exists.1 hs
    obtain ⟨w', hr, hi', hf', -⟩ := release_ok hi hc
    have h3 := h3 w' hr
    refine ⟨put { w' with os := h :: w'.os } i h, by simp [exec, hr], put_ok (c := T.inv) (h := h) ?_ hf' (.inl rfl)⟩
    refine ⟨fun x hx hxp => ?_, fun x => ?_, ?_, ?_, hi'.userOk⟩
    · have := hi'.own x hx hxp
      simp only [tmp, holders, List.count_cons, beq_iff_eq] at *; omega
    · have := hi'.one x
      simp only [List.count_cons, beq_iff_eq]
      split
      · subst x; have := List.count_eq_zero.2 h3; omega
      · omega
    · simp [Ne.symm h1, hi'.noInv]
    · intro x hx; simp [hi'.noPs x hx]; rintro rfl; simp [h2] at hx
  | assign i j dup =>
    obtain ⟨hs, hj, hd⟩ := hok
    obtain ⟨c, hc⟩ := Option.isSome_iff_exists.1 hs
    obtain ⟨d, hjd⟩ := Option.isSome_iff_exists.1 hj
    obtain ⟨p, h1, h2, h3, _⟩ := clone_ok hi hjd hd
    obtain ⟨w', hr, hi', -⟩ := attach_ok (i := i) (c := c) h2 (by simpa [fld, h3] using hc)
    exact ⟨w', by simp [exec, h1, hr], hi'⟩
  | move i j =>
    obtain ⟨hs, hj⟩ := hok
    obtain ⟨c, hc⟩ := Option.isSome_iff_exists.1 hs
    obtain ⟨d, hjd⟩ := Option.isSome_iff_exists.1 hj
    obtain ⟨h1, h2⟩ := detach_ok hi hjd
    obtain ⟨w', hr, hi', -⟩ := attach_ok (i := i) (c := if i = j then T.inv else c) h2
      (by rw [fld_put hjd]; split <;> simp_all)
    exact ⟨w', by simp [exec, h1, hr], hi'⟩

theorem inv_init (T : Traits) : Inv T ⟨[], [], []⟩ :=
  ⟨by simp [holders], by simp, by simp, by simp, by simp⟩

theorem inv_reach {T : Traits} {o : Option W} (h : Reach T o) : ∃ w, o = some w ∧ Inv T w := by
  induction h with
  | init => exact ⟨_, rfl, inv_init T⟩
  | step op _ hok ih =>
    obtain ⟨w, hw, hi⟩ := ih
    simp only [Option.some.injEq] at hw; subst hw
    exact exec_ok op hi hok

/-- **C70a.** In a program that keeps the contract (raw handles are given away only by their owner) no handle is ever
closed twice and no closed handle is closed: nothing undefined happens. -/
theorem C70_never_undefined {T : Traits} : ¬ Reach T none := fun h => by
  obtain ⟨_, h, _⟩ := inv_reach h; simp at h

/-- **C70b.** At every moment every open handle has exactly one owner, the user or exactly one wrapper. -/
theorem C70_one_owner {T : Traits} {w : W} (h : Reach T (some w)) (x : Nat) (hx : x ∈ w.os) :
    (x ∈ w.user ∧ ∀ i, fld w i ≠ some x) ∨
    (x ∉ w.user ∧ ∃ i, fld w i = some x ∧ ∀ k, fld w k = some x → k = i) := by
  obtain ⟨_, hw, hi⟩ := inv_reach h
  simp only [Option.some.injEq] at hw; subst hw
  have hxi : x ≠ T.inv := fun e => hi.noInv (e ▸ hx)
  have hxp : T.pseudo x = false := by
    cases hp : T.pseudo x with
    | false => rfl
    | true => exact absurd hx (hi.noPs x hp)
  have h1 := hi.own x hxi hxp
  have h2 := hi.one x
  have h3 := List.count_pos_iff.2 hx
  by_cases hu : x ∈ w.user
  · refine .inl ⟨hu, fun i hf => ?_⟩
    exact (held_open hi hf hxi hxp).2.1 hu
  · refine .inr ⟨hu, ?_⟩
    have h4 := List.count_eq_zero.2 hu
    have h5 : 0 < holders x w := by omega
    obtain ⟨o, ho, hpos⟩ := sumBy_pos _ _ h5
    obtain ⟨i, hio⟩ := List.getElem?_of_mem ho
    have ho' : o = some x := by
      by_cases h : o = some x
      · exact h
      · simp [h] at hpos
    subst ho'
    refine ⟨i, fld_some.2 hio, fun k hk => Classical.byContradiction fun hki => ?_⟩
    have := add_le_sumBy (fun o : Option Nat => if o = some x then 1 else 0) w.objs i k _ _ (Ne.symm hki) hio (fld_some.1 hk)
    simp only [if_true] at this
    simp only [holders] at h1 h5; omega

/-- **C70c.** No handle is lost: when all wrappers are destroyed only the raw handles of the user are open. -/
theorem C70_no_leak {T : Traits} {w : W} (h : Reach T (some w)) (hd : ∀ i, fld w i = none) (x : Nat) (hx : x ∈ w.os) :
    x ∈ w.user := by
  rcases C70_one_owner h x hx with h | ⟨_, i, hi, _⟩
  · exact h.1
  · simp [hd i] at hi

/-- **C70d.** A wrapper that says it is valid holds an open (or predefined) handle. -/
theorem C70_valid_open {T : Traits} {w : W} (h : Reach T (some w)) (i c : Nat) (hf : fld w i = some c)
    (hc : c ≠ T.inv) : c ∈ w.os ∨ T.pseudo c = true := by
  obtain ⟨_, hw, hi⟩ := inv_reach h
  simp only [Option.some.injEq] at hw; subst hw
  cases hp : T.pseudo c with
  | true => exact .inr rfl
  | false => exact .inl (held_open hi hf hc hp).1

/-- **C70e.** Destroying a wrapper closes its handle and no other. -/
theorem C70_destroy_closes {T : Traits} {w w' : W} (h : Reach T (some w)) (i c : Nat) (hf : fld w i = some c)
    (hc : c ≠ T.inv) (hp : T.pseudo c = false) (he : exec T (.destroy i) w = some w') :
    c ∉ w'.os ∧ (∀ x, x ≠ c → (x ∈ w'.os ↔ x ∈ w.os)) ∧ w'.user = w.user ∧ fld w' i = none ∧
      ∀ k, k ≠ i → fld w' k = fld w k := by
  obtain ⟨_, hw, hi⟩ := inv_reach h
  simp only [Option.some.injEq] at hw; subst hw
  obtain ⟨w₁, hr, hi', hf', hk, hu, ho, -⟩ := release_ok hi hf
  simp [exec, hr] at he; subst he
  have ho := ho hc hp
  refine ⟨?_, fun x hx => ?_, hu, ?_, fun k hki => ?_⟩
  · simp only [ho]
    have h1 := hi.one c
    rw [← List.count_eq_zero, List.count_erase_self]; omega
  · simp only [ho]; exact List.mem_erase_of_ne hx
  · have hl : i < w₁.objs.length := (List.getElem?_eq_some_iff.1 (fld_some.1 hf')).1
    simp [fld, hl]
  · rw [← hk k hki]; simp [fld, List.getElem?_set, Ne.symm hki]

/-- **C70f.** Assignment of a copy: if the system can duplicate the handle, both wrappers are valid afterwards and
hold different open handles, so each may be closed without harm to the other. -/
theorem C70_copy_independent {T : Traits} {w w' : W} (h : Reach T (some w)) (i j n c : Nat) (hij : i ≠ j)
    (hfi : (fld w i).isSome) (hfj : fld w j = some c) (hc : c ≠ T.inv) (hp : T.pseudo c = false)
    (hn : Fresh T w n) (he : exec T (.assign i j (some n)) w = some w') :
    fld w' i = some n ∧ fld w' j = some c ∧ n ≠ c ∧ n ∈ w'.os ∧ c ∈ w'.os := by
  have hr : Reach T (some w') := by
    rw [← he]; exact .step _ h ⟨hfi, by simp [hfj], fun m hm => by simp only [Option.some.injEq] at hm; exact hm ▸ hn⟩
  have hco := (C70_valid_open h j c hfj hc).resolve_right (by simp [hp])
  obtain ⟨_, hw, hi⟩ := inv_reach h
  simp only [Option.some.injEq] at hw; subst hw
  obtain ⟨d, hd⟩ := Option.isSome_iff_exists.1 hfi
  obtain ⟨p, h1, h2, h3, _⟩ := clone_ok (dup := some n) hi hfj (fun m hm => by simp only [Option.some.injEq] at hm; exact hm ▸ hn)
  have hpn : p.1 = n := by simp [clone, hfj, hc, hp] at h1; rw [← h1]
  obtain ⟨w₁, hr₁, hi', hf', hk, -⟩ := attach_ok (i := i) (c := d) h2 (by simpa [fld, h3] using hd)
  simp [exec, h1, hr₁] at he; subst he
  have hj : fld w₁ j = some c := by rw [hk j (Ne.symm hij)]; simpa [fld, h3] using hfj
  rw [hpn] at hf'
  exact ⟨hf', hj, fun e => hn.2.2 (e ▸ hco), (C70_valid_open hr i n hf' hn.1).resolve_right (by simp [hn.2.1]),
    (C70_valid_open hr j c hj hc).resolve_right (by simp [hp])⟩

/-- **C70g.** Assignment of a wrapper to itself by move, and attaching the handle it already holds, change nothing. -/
theorem C70_self {T : Traits} (w : W) (i c : Nat) (hf : fld w i = some c) :
    exec T (.move i i) w = some w ∧ exec T (.attach i c) w = some w := by
  have hl := fld_some.1 hf
  obtain ⟨hlt, he⟩ := List.getElem?_eq_some_iff.1 hl
  have hput : put (put w i T.inv) i c = w := by
    simp [put, ← he]
  constructor
  · simp only [exec, detach, hf, Option.bind_some, attach]
    rw [fld_put hf]
    simp only [if_true]
    by_cases hc : T.inv = c
    · simp [hc]
      have : put w i c = w := by simp [put, ← he]
      exact this
    · simp only [hc, if_false, release]
      rw [fld_put hf]
      simp [hput]
  · simp [exec, attach, hf]

/-- a handle is opened, wrapped, duplicated by a copy and moved on; when all wrappers are destroyed nothing is open -/
theorem C70_example : ∃ T w, Reach T (some w) ∧ w.os = [] ∧ w.objs.length = 3 ∧ (∀ i, fld w i = none) ∧
    ∃ v, Reach T (some v) ∧ fld v 0 = some 5 ∧ fld v 1 = some T.inv ∧ fld v 2 = some 6 := by
  have h1 : Reach ⟨0, fun _ => false⟩ _ := .step (.sysOpen 5) .init (by simp [Ok, Fresh])
  have h2 : Reach ⟨0, fun _ => false⟩ (some ⟨[5], [], [some 5]⟩) := .step (.newRaw 5) h1 (by simp [Ok, Mine])
  have h3 : Reach ⟨0, fun _ => false⟩ (some ⟨[6, 5], [], [some 5, some 6]⟩) := .step (.newCopy 0 (some 6)) h2 ⟨rfl, fun n hn => by cases hn; simp [Fresh]⟩
  have h4 : Reach ⟨0, fun _ => false⟩ (some ⟨[6, 5], [], [some 5, some 0, some 6]⟩) := .step (.newMove 1) h3 rfl
  have h5 : Reach ⟨0, fun _ => false⟩ (some ⟨[6], [], [none, some 0, some 6]⟩) := .step (.destroy 0) h4 rfl
  have h6 : Reach ⟨0, fun _ => false⟩ (some ⟨[6], [], [none, none, some 6]⟩) := .step (.destroy 1) h5 rfl
  have h7 : Reach ⟨0, fun _ => false⟩ (some ⟨[], [], [none, none, none]⟩) := .step (.destroy 2) h6 rfl
  refine ⟨_, _, h7, rfl, rfl, fun i => ?_, _, h4, rfl, rfl, rfl⟩
  match i with
  | 0 | 1 | 2 => rfl
  | _ + 3 => rfl

/-- **C70, negation 1.** Copy assignment is not safe against failure: if the system cannot duplicate the handle, the
target silently loses the handle it had – even in the assignment of a wrapper to itself. -/
theorem C70_copy_failure_fails : ∃ (T : Traits) (w w' : W), Reach T (some w) ∧ fld w 0 = some 5 ∧
    exec T (.assign 0 0 none) w = some w' ∧ fld w' 0 = some T.inv ∧ 5 ∉ w'.os := by
  refine ⟨⟨0, fun _ => false⟩, ⟨[5], [], [some 5]⟩, ⟨[], [], [some 0]⟩, ?_, by decide, by decide, by decide, by decide⟩
  have h1 : Reach ⟨0, fun _ => false⟩ _ := .step (.sysOpen 5) .init (by simp [Ok, Fresh])
  exact .step (.newRaw 5) h1 (by simp [Ok, Mine])

/-- **C70, negation 2.** Without the contract: a raw handle given to two wrappers is closed twice. -/
theorem C70_two_wrappers_fails : ∃ (T : Traits) (w : W), fld w 0 = some 5 ∧ fld w 1 = some 5 ∧
    (exec T (.destroy 0) w).isSome ∧ (exec T (.destroy 0) w).bind (exec T (.destroy 1)) = none :=
  ⟨⟨0, fun _ => false⟩, ⟨[5], [], [some 5, some 5]⟩, by decide, by decide, by decide, by decide⟩

/-- **C70, negation 3.** `Win32RegistryHandleTraits::CloseHandle` tests the result of `RegCloseKey` the wrong way
round: success (0) is reported as the last error of the thread, every failure as `S_OK`; the sibling for kernel
handles reports correctly. -/
theorem C70_registry_result_fails (hr : Nat → Nat) :
    (∀ e, regCloseResult hr 0 e = hr e) ∧ (∀ st e, st ≠ 0 → regCloseResult hr st e = 0) ∧
    (∀ e, closeResult hr true e = 0) ∧ (∀ e, closeResult hr false e = hr e) := by
  refine ⟨fun e => rfl, fun st e h => by simp [regCloseResult, h], fun e => rfl, fun e => rfl⟩

/-- A kind of handle with predefined values, like registry keys. -/
def demoT : Traits := ⟨0, fun h => h ≥ 100⟩

/-- Non-vacuity: a handle is opened, wrapped, copied, the original moved, a predefined handle wrapped and one copy
detached; everything else is closed by its owner. -/
theorem demo_all : Reach demoT (some ⟨[6, 5], [], [some 0, some 6, some 5]⟩) ∧
    Reach demoT (some ⟨[6], [6], [none, none, none, none]⟩) := by
  have h1 : Reach demoT (some ⟨[5], [5], []⟩) := .step (.sysOpen 5) .init (by simp [Ok, Fresh, demoT])
  have h2 : Reach demoT (some ⟨[5], [], [some 5]⟩) := .step (.newRaw 5) h1 (by simp [Ok, Mine])
  have h3 : Reach demoT (some ⟨[6, 5], [], [some 5, some 6]⟩) :=
    .step (.newCopy 0 (some 6)) h2 (by simp [Ok, Fresh, demoT, fld])
  have h4 : Reach demoT (some ⟨[6, 5], [], [some 0, some 6, some 5]⟩) := .step (.newMove 0) h3 (by simp [Ok, fld])
  refine ⟨h4, ?_⟩
  have h5 : Reach demoT (some ⟨[6, 5], [], [some 0, some 6, some 5, some 100]⟩) :=
    .step (.newRaw 100) h4 (by simp [Ok, Mine, demoT])
  have h6 : Reach demoT (some ⟨[6, 5], [6], [some 0, some 0, some 5, some 100]⟩) :=
    .step (.detach 1) h5 (by simp [Ok, fld])
  have h7 : Reach demoT (some ⟨[6, 5], [6], [none, some 0, some 5, some 100]⟩) :=
    .step (.destroy 0) h6 (by simp [Ok, fld])
  have h8 : Reach demoT (some ⟨[6, 5], [6], [none, none, some 5, some 100]⟩) :=
    .step (.destroy 1) h7 (by simp [Ok, fld])
  have h9 : Reach demoT (some ⟨[6], [6], [none, none, none, some 100]⟩) :=
    .step (.destroy 2) h8 (by simp [Ok, fld])
  exact .step (.destroy 3) h9 (by simp [Ok, fld])

end Verif.Handle
