import Verif.PoolWait.Model

/-! Invariant of the thread pool wait (helper lemmas for C71). -/
namespace Verif.PoolWait
open Verif.Common

/-- References held by registrations. -/
def hOs : Os → Nat
  | .armed => 1
  | _ => 0

/-- Threads that carry on the one activity "register, fire, run, register again". -/
def flow : Pc → Nat
  | .set | .arm | .armTook _ | .armRel | .due | .cb _ | .cbGot _ | .cbTook _ _ | .cbRes _ | .queued => 1
  | _ => 0

/-- Thread has taken handle `h`. -/
def tk (h : Nat) : Pc → Nat
  | .took g | .armTook g | .cbTook _ g => if g = h then 1 else 0
  | _ => 0

/-- Thread executes the callback of registration `h`. -/
def cbOf (h : Nat) : Pc → Nat
  | .cb g | .cbGot g | .cbTook g _ | .cbRes g | .cbDropS g | .cbDropW g | .cbEnd g => if g = h then 1 else 0
  | _ => 0

/-- ... and has not looked at the handle yet. -/
def isCb (h : Nat) : Pc → Nat
  | .cb g | .cbGot g => if g = h then 1 else 0
  | _ => 0

/-- A callback that took the handle of another registration. -/
def wrong : Pc → Nat
  | .cbTook h g => if g = h then 0 else 1
  | _ => 0

/-- How often the handle of a registration in this state is around. -/
def tgt : Option Os → Nat
  | some .armed | some (.firing false) => 1
  | _ => 0

/-- How many threads execute the callback of a registration in this state. -/
def cbn : Option Os → Nat
  | some (.firing _) => 1
  | _ => 0

def arm1 : Option Os → Nat
  | some .armed => 1
  | _ => 0

def slotN (sl : Option Nat) (h : Nat) : Nat := if sl = some h then 1 else 0

/-- The weak reference of all strong ones together. -/
def common (n : Nat) : Nat := if n = 0 then 0 else 1

structure Inv (s : St) : Prop where
  str : s.strong = sumBy heldS s.ths
  wk : s.weak = sumBy heldW s.ths + sumBy hOs s.os + common s.strong
  flow : sumBy flow s.ths + sumBy hOs s.os ≤ 1
  slot : s.strong ≠ 0 → ∀ g, s.slot = some g → 1 ≤ arm1 s.os[g]? + sumBy (isCb g) s.ths
  cnt : s.strong ≠ 0 → ∀ h, slotN s.slot h + sumBy (tk h) s.ths = tgt s.os[h]?
  wrong : sumBy wrong s.ths = 0
  cbs : ∀ h, sumBy (cbOf h) s.ths = cbn s.os[h]?
  bad : s.bad = false

theorem sum_set {α} (f : α → Nat) {l : List α} {i : Nat} {y : α} (h : l[i]? = some y) (x : α) :
    sumBy f (l.set i x) + f y = sumBy f l + f x := sumBy_set f l i x y h

theorem arm1_le (os : List Os) (h : Nat) : arm1 os[h]? ≤ sumBy hOs os := by
  cases e : os[h]? with
  | none => simp [arm1]
  | some o =>
    have := le_sumBy hOs os h o e
    cases o <;> simp_all [arm1, hOs]

theorem isCb_le_flow (l : List Pc) (h : Nat) : sumBy (isCb h) l ≤ sumBy flow l := by
  induction l with
  | nil => simp
  | cons a l ih =>
    have : isCb h a ≤ flow a := by cases a <;> simp only [isCb, flow] <;> (try split) <;> omega
    simp only [sumBy_cons]; omega

theorem isCb_le_cbOf (l : List Pc) (h : Nat) : sumBy (isCb h) l ≤ sumBy (cbOf h) l := by
  induction l with
  | nil => simp
  | cons a l ih =>
    have : isCb h a ≤ cbOf h a := by cases a <;> simp only [isCb, cbOf] <;> (try split) <;> omega
    simp only [sumBy_cons]; omega

theorem strong_pos {s : St} (I : Inv s) {i : Nat} {y : Pc} (hy : s.ths[i]? = some y) (hh : heldS y = 1) :
    s.strong ≠ 0 := by
  have := le_sumBy heldS s.ths i y hy
  have := I.str
  omega

theorem acc_false {s : St} (I : Inv s) {i : Nat} {y : Pc} (hy : s.ths[i]? = some y) (hh : heldS y = 1) :
    acc s = false := by
  have h1 := strong_pos I hy hh
  have h2 := I.wk
  have : s.weak ≠ 0 := by simp [common, h1] at h2; omega
  simp [acc, I.bad, this, h1]

theorem accW_false {s : St} (I : Inv s) {i : Nat} {y : Pc} (hy : s.ths[i]? = some y) (hh : heldW y = 1) :
    accW s = false := by
  have := le_sumBy heldW s.ths i y hy
  have h2 := I.wk
  have : s.weak ≠ 0 := by omega
  simp [accW, I.bad, this]

/-- A thread moves on without touching the registrations; `l`: new tokens. -/
theorem inv_move {s : St} (I : Inv s) {i : Nat} {y : Pc} (hy : s.ths[i]? = some y) (x : Pc) (l : List Pc)
    {slot' : Option Nat} {strong' weak' : Nat} {st' : Status} {bad' : Bool}
    (hl : l = [] ∨ l = [.queued])
    (h1 : strong' + heldS y = s.strong + heldS x)
    (h1' : weak' + heldW y + common s.strong = s.weak + heldW x + common strong')
    (h2 : flow x + l.length ≤ flow y) (h3 : wrong x = 0)
    (h4 : ∀ h, slotN slot' h + tk h x = slotN s.slot h + tk h y) (h5 : ∀ h, cbOf h x = cbOf h y)
    (h6 : strong' ≠ 0 → ∀ g, slot' = some g → s.slot = some g ∧ isCb g y = isCb g x) (h7 : bad' = false)
    (h8 : strong' ≠ 0 → s.strong ≠ 0) :
    Inv { s with slot := slot', strong := strong', weak := weak', status := st', bad := bad', ths := s.ths.set i x ++ l } := by
  have e := fun f => sum_set f hy x
  have hlS : sumBy heldS l = 0 := by rcases hl with rfl | rfl <;> rfl
  have hlW : sumBy heldW l = 0 := by rcases hl with rfl | rfl <;> rfl
  have hlF : sumBy flow l = l.length := by rcases hl with rfl | rfl <;> rfl
  have hlT : ∀ h, sumBy (tk h) l = 0 := fun h => by rcases hl with rfl | rfl <;> rfl
  have hlC : ∀ h, sumBy (cbOf h) l = 0 := fun h => by rcases hl with rfl | rfl <;> rfl
  have hlI : ∀ h, sumBy (isCb h) l = 0 := fun h => by rcases hl with rfl | rfl <;> rfl
  have hlR : sumBy wrong l = 0 := by rcases hl with rfl | rfl <;> rfl
  refine ⟨?_, ?_, ?_, fun hp g hg => ?_, fun hp h => ?_, ?_, fun h => ?_, h7⟩ <;> simp only [sumBy_append]
  · have := e heldS; have := I.str; omega
  · have := e heldW; have := I.wk; omega
  · have := e Verif.PoolWait.flow; have := I.flow; omega
  · have := e (isCb g); have h := h6 hp g hg; have := I.slot (h8 hp) g h.1; have := hlI g; dsimp only at *; omega
  · have := e (tk h); have := h4 h; have := I.cnt (h8 hp) h; have := hlT h; dsimp only at *; omega
  · have := e Verif.PoolWait.wrong; have := I.wrong; omega
  · have := e (cbOf h); have := h5 h; have := I.cbs h; have := hlC h; omega

theorem inv_move' {s : St} (I : Inv s) {i : Nat} {y : Pc} (hy : s.ths[i]? = some y) (x : Pc)
    {slot' : Option Nat} {strong' weak' : Nat} {st' : Status} {bad' : Bool}
    (h1 : strong' + heldS y = s.strong + heldS x)
    (h1' : weak' + heldW y + common s.strong = s.weak + heldW x + common strong')
    (h2 : flow x ≤ flow y) (h3 : wrong x = 0)
    (h4 : ∀ h, slotN slot' h + tk h x = slotN s.slot h + tk h y) (h5 : ∀ h, cbOf h x = cbOf h y)
    (h6 : strong' ≠ 0 → ∀ g, slot' = some g → s.slot = some g ∧ isCb g y = isCb g x) (h7 : bad' = false)
    (h8 : strong' ≠ 0 → s.strong ≠ 0) :
    Inv { s with slot := slot', strong := strong', weak := weak', status := st', bad := bad', ths := s.ths.set i x } := by
  have := inv_move I hy x [] (slot' := slot') (strong' := strong') (weak' := weak') (st' := st') (bad' := bad')
    (.inl rfl) h1 h1' (by simpa using h2) h3 h4 h5 h6 h7 h8
  simpa using this

/-- ... without releasing or taking references -/
theorem inv_simple {s : St} (I : Inv s) {i : Nat} {y : Pc} (hy : s.ths[i]? = some y) (x : Pc) {st' : Status} {bad' : Bool}
    (h1 : heldS y = heldS x) (h1' : heldW y = heldW x) (h2 : flow x ≤ flow y) (h3 : wrong x = 0)
    (h4 : ∀ h, tk h x = tk h y) (h5 : ∀ h, cbOf h x = cbOf h y) (h6 : ∀ g, isCb g y = isCb g x) (h7 : bad' = false) :
    Inv { s with status := st', bad := bad', ths := s.ths.set i x } :=
  inv_move' I hy x (by omega) (by omega) h2 h3 (fun h => by rw [h4 h]) h5 (fun _ g hg => ⟨hg, h6 g⟩) h7 (fun h => h)

theorem os_set_ne (os : List Os) (g h : Nat) (o : Os) (hne : g ≠ h) : (os.set g o)[h]? = os[h]? :=
  List.getElem?_set_ne hne

theorem os_set_eq {os : List Os} {g : Nat} {o' : Os} (h : os[g]? = some o') (o : Os) : (os.set g o)[g]? = some o := by
  have : g < os.length := by
    rcases Nat.lt_or_ge g os.length with h' | h'
    · exact h'
    · rw [List.getElem?_eq_none h'] at h; cases h
  simp [this]

theorem del_facts (o : Os) (ho : tgt (some o) = 1) :
    tgt (some (delOs o)) = 0 ∧ cbn (some (delOs o)) = cbn (some o) ∧ arm1 (some (delOs o)) = 0 ∧
    hOs (delOs o) = 0 ∧ (delRet o = true ↔ hOs o = 1) := by
  cases o with
  | firing b => cases b <;> simp_all [tgt, cbn, delOs, hOs, arm1, delRet]
  | _ => simp_all [tgt, cbn, delOs, hOs, arm1, delRet]

theorem tk_tgt {s : St} (I : Inv s) {i h : Nat} {y : Pc} {o : Os} (hy : s.ths[i]? = some y) (ho : s.os[h]? = some o)
    (hS : heldS y = 1) (h0 : tk h y = 1) : tgt (some o) = 1 ∧ slotN s.slot h = 0 ∧ sumBy (tk h) s.ths = 1 := by
  have h1 := I.cnt (strong_pos I hy hS) h
  have h2 := le_sumBy (tk h) s.ths i y hy
  rw [ho] at h1
  have : tgt (some o) ≤ 1 := by
    cases o with
    | firing b => cases b <;> simp [tgt]
    | _ => simp [tgt]
  omega

/-- A thread that took a handle unregisters it. -/
theorem inv_del {s : St} (I : Inv s) {i h : Nat} {y x : Pc} {o : Os} (hy : s.ths[i]? = some y) (ho : s.os[h]? = some o)
    (hS : heldS y = 1)
    (h0 : ∀ g, tk g y = if h = g then 1 else 0) (h1 : heldS x = heldS y) (h1' : heldW x = heldW y + hOs o) (h2 : flow x ≤ flow y + hOs o)
    (h3 : wrong x = 0) (h4 : ∀ g, tk g x = 0) (h5 : ∀ g, cbOf g x = cbOf g y) (h6 : ∀ g, isCb g y = 0) :
    Inv { s with os := s.os.set h (delOs o), ths := s.ths.set i x } := by
  have e := fun f => sum_set f hy x
  have eo := sum_set hOs ho (delOs o)
  obtain ⟨ht, hs1, hs2⟩ := tk_tgt I hy ho hS (by rw [h0 h, if_pos rfl])
  have F := del_facts o ht
  refine ⟨?_, ?_, ?_, fun hp g hg => ?_, fun hp g => ?_, ?_, fun g => ?_, I.bad⟩
  · have := e heldS; have := I.str; dsimp only; omega
  · have := e heldW; have := I.wk; have := F.2.2.2.1; dsimp only; omega
  · have := e Verif.PoolWait.flow; have := I.flow; have := F.2.2.2.1; dsimp only; omega
  · have hgh : h ≠ g := by
      rintro rfl
      simp only [slotN] at hs1; dsimp only at hg; rw [if_pos hg] at hs1; omega
    have := e (isCb g); have := h6 g; have := I.slot hp g hg
    dsimp only at *; rw [os_set_ne _ _ _ _ hgh]; omega
  · have := e (tk g); have := I.cnt hp g; have := h4 g; have := h0 g
    by_cases hgh : h = g
    · subst hgh
      dsimp only at *; rw [os_set_eq ho]; rw [if_pos rfl] at *; have := F.1; omega
    · dsimp only at *; rw [os_set_ne _ _ _ _ hgh]; rw [if_neg hgh] at *; omega
  · have := e Verif.PoolWait.wrong; have := I.wrong; dsimp only at *; omega
  · have := e (cbOf g); have := I.cbs g; have := h5 g
    by_cases hgh : h = g
    · subst hgh
      dsimp only at *; rw [os_set_eq ho]; have := F.2.1; rw [ho] at *; omega
    · dsimp only at *; rw [os_set_ne _ _ _ _ hgh]; omega

theorem slotN_none (h : Nat) : slotN none h = 0 := by simp [slotN]
theorem slotN_some (g h : Nat) : slotN (some g) h = if g = h then 1 else 0 := by simp [slotN]

/-- At a moment when the dispatcher is about to register, nothing is registered and no handle is stored. -/
theorem slot_none_of_flow {s : St} (I : Inv s) {i : Nat} {y : Pc} (hy : s.ths[i]? = some y) (hf : flow y = 1)
    (hS : heldS y = 1) (hc : ∀ g, isCb g y = 0) : s.slot = none := by
  cases e : s.slot with
  | none => rfl
  | some g =>
    exfalso
    have := I.slot (strong_pos I hy hS) g e
    have := arm1_le s.os g
    have := I.flow
    have h3 := le_sumBy flow s.ths i y hy
    have h2 : sumBy flow (s.ths.set i .over) + 1 = sumBy flow s.ths := by
      have := sum_set flow hy .over
      rw [hf] at this; simpa [flow] using this
    have h4 : sumBy (isCb g) (s.ths.set i .over) = sumBy (isCb g) s.ths := by
      have := sum_set (isCb g) hy .over
      rw [hc g] at this; simpa [isCb] using this
    have := isCb_le_flow (s.ths.set i .over) g
    omega

theorem inv_init : Inv init := by
  refine ⟨rfl, rfl, by decide, fun _ g hg => ?_, fun _ h => ?_, rfl, fun h => ?_, rfl⟩
  · simp [init] at hg
  · simp [init, slotN, tgt, tk]
  · simp [init, cbn, cbOf]

theorem common_rel {s : St} (I : Inv s) (h : s.strong ≠ 0) :
    relW s + common s.strong = s.weak + common (s.strong - 1) := by
  have := I.wk
  unfold relW common at *
  by_cases h1 : s.strong = 1
  · simp [h1] at *; omega
  · have : s.strong - 1 ≠ 0 := by omega
    simp [h1, h, this]

theorem posted_cases (st : Status) : posted st = [] ∨ posted st = [.queued] := by cases st <;> simp [posted]

theorem posted_len (st : Status) : (posted st).length ≤ 1 := by cases st <;> simp [posted]

theorem inv_step {s s' : St} (I : Inv s) (st : Step false s s') : Inv s' := by
  cases st with
  | dup i p =>
    have hp := strong_pos I p rfl
    refine ⟨?_, ?_, ?_, fun _ g hg => ?_, fun _ h => ?_, ?_, fun h => ?_, acc_false I p rfl⟩
    · have := I.str; simp only [sumBy_append]; simp [heldS]; omega
    · have := I.wk; simp only [sumBy_append]; simp [heldW, common, hp] at *; omega
    · have := I.flow; simp only [sumBy_append]; simp [flow]; omega
    · have := I.slot hp g hg; simp only [sumBy_append]; omega
    · have := I.cnt hp h; simp only [sumBy_append]; simp [tk]; omega
    · have := I.wrong; simp only [sumBy_append]; simp [wrong]; omega
    · have := I.cbs h; simp only [sumBy_append]; simp [cbOf]; omega
  | leave i p => exact inv_simple I p .drop rfl rfl (by simp [flow]) rfl (fun _ => rfl) (fun _ => rfl) (fun _ => rfl) I.bad
  | drop i p =>
    have hp := strong_pos I p rfl
    have := common_rel I hp
    exact inv_move' I p .over (by simp [heldS]; omega) (by simp [heldW]; omega) (by simp [flow]) rfl (fun _ => rfl) (fun _ => rfl)
      (fun _ g h => ⟨h, rfl⟩) (acc_false I p rfl) (fun _ => hp)
  | cancel i p q => exact inv_simple I p .cancel rfl rfl (by simp [flow]) rfl (fun _ => rfl) (fun _ => rfl) (fun _ => rfl) (acc_false I p rfl)
  | takeNone i p q => exact inv_simple I p .user rfl rfl (by simp [flow]) rfl (fun _ => rfl) (fun _ => rfl) (fun _ => rfl) (acc_false I p rfl)
  | takeSome i h p q =>
    exact inv_move' I p (.took h) rfl rfl (by simp [flow]) rfl (fun g => by rw [q, slotN_none, slotN_some]; simp [tk]) (fun _ => rfl)
      (fun _ g h => by cases h) (acc_false I p rfl) (fun h => h)
  | del i h o p q =>
    have F := del_facts o (tk_tgt I p q rfl (by simp [tk])).1
    by_cases hr : delRet o = true
    · rw [if_pos hr]
      have := F.2.2.2.2.1 hr
      exact inv_del I p q rfl (fun g => rfl) rfl (by simp [heldW, this]) (by simp [flow]) rfl (fun _ => rfl) (fun _ => rfl) (fun _ => rfl)
    · rw [if_neg hr]
      have : hOs o = 0 := by cases o <;> simp_all [hOs, delRet]
      exact inv_del I p q rfl (fun g => rfl) rfl (by simp [heldW, this]) (by simp [flow]) rfl (fun _ => rfl) (fun _ => rfl) (fun _ => rfl)
  | relCancel i p =>
    have : 1 ≤ s.weak := by have := I.wk; have := le_sumBy heldW _ _ _ p; simp [heldW] at this; omega
    exact inv_move' I p .user rfl (by simp [heldW]; omega) (by simp [flow]) rfl (fun _ => rfl) (fun _ => rfl)
      (fun _ g h => ⟨h, rfl⟩) (acc_false I p rfl) (fun h => h)
  | setCancel i p q => exact inv_simple I p .drop rfl rfl (by simp [flow]) rfl (fun _ => rfl) (fun _ => rfl) (fun _ => rfl) (acc_false I p rfl)
  | setArm i p q => exact inv_simple I p .arm rfl rfl (by simp [flow]) rfl (fun _ => rfl) (fun _ => rfl) (fun _ => rfl) (acc_false I p rfl)
  | armNone i p q => exact inv_simple I p .due rfl rfl (by simp [flow]) rfl (fun _ => rfl) (fun _ => rfl) (fun _ => rfl) (acc_false I p rfl)
  | armSome i h p q =>
    have := slot_none_of_flow I p rfl rfl (fun _ => rfl)
    rw [this] at q; cases q
  | armDel i h o p q =>
    have F := del_facts o (tk_tgt I p q rfl (by simp [tk])).1
    by_cases hr : delRet o = true
    · rw [if_pos hr]
      have := F.2.2.2.2.1 hr
      exact inv_del I p q rfl (fun g => rfl) rfl (by simp [heldW, this]) (by simp [flow]) rfl (fun _ => rfl) (fun _ => rfl) (fun _ => rfl)
    · rw [if_neg hr]
      have : hOs o = 0 := by cases o <;> simp_all [hOs, delRet]
      exact inv_del I p q rfl (fun g => rfl) rfl (by simp [heldW, this]) (by simp [flow]) rfl (fun _ => rfl) (fun _ => rfl) (fun _ => rfl)
  | armRel i p =>
    have : 1 ≤ s.weak := by have := I.wk; have := le_sumBy heldW _ _ _ p; simp [heldW] at this; omega
    exact inv_move' I p .due rfl (by simp [heldW]; omega) (by simp [flow]) rfl (fun _ => rfl) (fun _ => rfl)
      (fun _ g h => ⟨h, rfl⟩) (acc_false I p rfl) (fun h => h)
  | dueNow i p =>
    exact inv_move I p .drop _ (posted_cases _) rfl rfl (by simp [flow]; exact posted_len _) rfl (fun _ => rfl) (fun _ => rfl)
      (fun _ g h => ⟨h, rfl⟩) (acc_false I p rfl) (fun h => h)
  | create i p =>
    have hn := slot_none_of_flow I p rfl rfl (fun _ => rfl)
    have hp := strong_pos I p rfl
    have e := fun f => sum_set f p .drop
    refine ⟨?_, ?_, ?_, fun _ g hg => ?_, fun _ h => ?_, ?_, fun h => ?_, acc_false I p rfl⟩
    · have := I.str; have := e heldS; simp [heldS] at *; omega
    · have := I.wk; have := e heldW; simp only [sumBy_append]; simp [heldW, hOs] at *; omega
    · have := I.flow; have := e flow; simp only [sumBy_append]; simp [flow, hOs] at *; omega
    · cases hg; simp [arm1]
    · have := I.cnt hp h; have := e (tk h); rw [hn] at *
      by_cases hh : s.os.length = h
      · subst hh
        simp [slotN, tk, tgt] at *; omega
      · have : (s.os ++ [.armed])[h]? = s.os[h]? := by
          rcases Nat.lt_or_ge h s.os.length with hl | hl
          · rw [List.getElem?_append_left hl]
          · rw [List.getElem?_eq_none hl, List.getElem?_eq_none]; simp; omega
        dsimp only; rw [this]; simp [slotN, tk, hh] at *; omega
    · have := I.wrong; have := e wrong; simp [wrong] at *; omega
    · have := I.cbs h; have := e (cbOf h)
      by_cases hh : s.os.length = h
      · subst hh
        simp [cbOf, cbn] at *; omega
      · have : (s.os ++ [.armed])[h]? = s.os[h]? := by
          rcases Nat.lt_or_ge h s.os.length with hl | hl
          · rw [List.getElem?_append_left hl]
          · rw [List.getElem?_eq_none hl, List.getElem?_eq_none]; simp; omega
        dsimp only; rw [this]; simp [cbOf] at *; omega
  | createFail i p => exact inv_simple I p .drop rfl rfl (by simp [flow]) rfl (fun _ => rfl) (fun _ => rfl) (fun _ => rfl) (acc_false I p rfl)
  | fire h p =>
    have e := sum_set hOs p (.firing false)
    refine ⟨?_, ?_, ?_, fun hp g hg => ?_, fun hp g => ?_, ?_, fun g => ?_, I.bad⟩
    · have := I.str; simp only [sumBy_append]; simp [heldS] at *; omega
    · have := I.wk; simp only [sumBy_append]; simp [heldW, hOs] at *; omega
    · have := I.flow; simp only [sumBy_append]; simp [flow, hOs] at *; omega
    · have := I.slot hp g hg; simp only [sumBy_append]
      by_cases hh : h = g
      · subst hh; simp [isCb]; omega
      · rw [os_set_ne _ _ _ _ hh]; omega
    · have := I.cnt hp g; simp only [sumBy_append]
      by_cases hh : h = g
      · subst hh; rw [os_set_eq p]; rw [p] at *; simp [tgt, tk] at *; omega
      · rw [os_set_ne _ _ _ _ hh]; simp [tk] at *; omega
    · have := I.wrong; simp only [sumBy_append]; simp [wrong]; omega
    · have := I.cbs g; simp only [sumBy_append]
      by_cases hh : h = g
      · subst hh; rw [os_set_eq p]; rw [p] at *; simp [cbn, cbOf] at *; omega
      · rw [os_set_ne _ _ _ _ hh]; simp [cbOf, hh] at *; omega
  | cbGet i h p q =>
    have hp : s.strong ≠ 0 := by omega
    exact inv_move' I p (.cbGot h) (by simp [heldS]) (by simp [heldW, common, hp]) (by simp [flow]) rfl (fun _ => rfl) (fun _ => rfl)
      (fun _ g h => ⟨h, rfl⟩) (accW_false I p rfl) (fun _ => hp)
  | cbExpired i h p q =>
    exact inv_move' I p (.cbDropW h) rfl rfl (by simp [flow]) rfl (fun _ => rfl) (fun _ => rfl)
      (fun hp g h => absurd q hp) (accW_false I p rfl) (fun h => h)
  | cbNone i h p q =>
    exact inv_move' I p (.cbRes h) rfl rfl (by simp [flow]) rfl (fun _ => rfl) (fun _ => rfl)
      (fun _ g h => by rw [q] at h; cases h) (acc_false I p rfl) (fun h => h)
  | cbSome i h g p q =>
    have hp := strong_pos I p rfl
    have hg : g = h := by
      refine Classical.byContradiction fun hne => ?_
      have := I.slot hp g q
      have := arm1_le s.os g
      have := I.flow
      have h2 := sum_set flow p .over
      have h4 := sum_set (isCb g) p .over
      have := isCb_le_flow (s.ths.set i .over) g
      have : ¬ h = g := fun e => hne e.symm
      simp [flow, isCb, this] at *
      omega
    subst hg
    refine inv_move' I p (.cbTook g g) rfl rfl (by simp [flow]) (by simp [wrong]) (fun k => ?_) (fun _ => rfl) (fun _ k hk => by cases hk)
      (acc_false I p rfl) (fun h => h)
    rw [q, slotN_none, slotN_some]; simp [tk]
  | cbDel i h g o p q =>
    have hz : hOs o = 0 := by
      have := I.flow; have := le_sumBy flow _ _ _ p; have := le_sumBy hOs _ _ _ q
      simp [flow] at *; omega
    exact inv_del I p q rfl (fun k => rfl) rfl (by simp [heldW, hz]) (by simp [flow]) rfl (fun _ => rfl) (fun _ => rfl) (fun _ => rfl)
  | cbResolve i h p =>
    exact inv_move I p (.cbDropS h) _ (posted_cases _) rfl rfl (by simp [flow]; exact posted_len _) rfl (fun _ => rfl) (fun _ => rfl)
      (fun _ g h => ⟨h, rfl⟩) (acc_false I p rfl) (fun h => h)
  | cbRelS i h p =>
    have hp := strong_pos I p rfl
    have := common_rel I hp
    exact inv_move' I p (.cbDropW h) (by simp [heldS]; omega) (by simp [heldW]; omega) (by simp [flow]) rfl (fun _ => rfl) (fun _ => rfl)
      (fun _ g h => ⟨h, rfl⟩) (acc_false I p rfl) (fun _ => hp)
  | cbRelW i h p =>
    have : 1 ≤ s.weak := by have := I.wk; have := le_sumBy heldW _ _ _ p; simp [heldW] at this; omega
    exact inv_move' I p (.cbEnd h) rfl (by simp [heldW]; omega) (by simp [flow]) rfl (fun _ => rfl) (fun _ => rfl)
      (fun _ g h => ⟨h, rfl⟩) (accW_false I p rfl) (fun h => h)
  | cbEnd i h o p q w =>
    have hw := w rfl
    have e := fun f => sum_set f p .over
    have eo := sum_set hOs q (endOs o)
    -- the callback is being executed
    have hf : cbn (some o) = 1 := by
      have := I.cbs h; have := le_sumBy (cbOf h) _ _ _ p; rw [q] at *
      have : cbn (some o) ≤ 1 := by cases o <;> simp [cbn]
      simp [cbOf] at *; omega
    have hz : hOs o = 0 ∧ hOs (endOs o) = 0 ∧ cbn (some (endOs o)) = 0 ∧ arm1 (some (endOs o)) = 0 ∧ arm1 (some o) = 0 := by
      cases o <;> simp [cbn] at hf
      rename_i b; cases b <;> simp [hOs, endOs, cbn, arm1]
    have hcb : sumBy (cbOf h) s.ths = 1 := by rw [I.cbs h, q, hf]
    -- nobody has its handle
    have hno : sumBy (tk h) s.ths = 0 := by
      rw [sumBy_eq_zero]
      intro x hx
      have h1 := hw x hx
      have h2 := (sumBy_eq_zero _ _).1 I.wrong x hx
      obtain ⟨j, hj⟩ := List.getElem?_of_mem hx
      cases x <;> simp only [tk, holds] at * <;> (try (simp at h1; simp [h1]; done)) <;> (try rfl)
      -- a callback that took the handle of `h` would be the callback of `h`, not yet at its end
      rename_i a b
      simp only [wrong] at h2
      by_cases hb : b = h
      · exfalso
        have hba : b = a := by
          refine Classical.byContradiction fun hne => ?_
          rw [if_neg hne] at h2; cases h2
        have hij : i ≠ j := by rintro rfl; rw [p] at hj; cases hj
        have := add_le_sumBy (cbOf h) s.ths i j _ _ hij p hj
        simp only [cbOf] at this
        rw [← hba, if_pos hb, if_pos trivial] at this
        omega
      · rw [if_neg hb]
    have hsl : s.strong ≠ 0 → slotN s.slot h = 0 := by
      intro hp
      refine Classical.byContradiction fun hne => ?_
      have : s.slot = some h := by
        simp only [slotN] at hne; split at hne
        · assumption
        · exact absurd rfl hne
      have := I.slot hp h this
      rw [q, hz.2.2.2.2] at this
      have h1 := sum_set (isCb h) p .over
      have h2 := sum_set (cbOf h) p .over
      have h3 := isCb_le_cbOf (s.ths.set i .over) h
      simp [isCb, cbOf] at h1 h2
      omega
    have htgt : tgt (some (endOs o)) = 0 := by
      cases o <;> simp [cbn] at hf
      rename_i b; cases b <;> simp [endOs, tgt]
    refine ⟨?_, ?_, ?_, fun hp g hg => ?_, fun hp g => ?_, ?_, fun g => ?_, I.bad⟩
    · have := I.str; have := e heldS; simp [heldS] at *; omega
    · have := I.wk; have := e heldW; simp [heldW] at *; omega
    · have := I.flow; have := e flow; simp [flow] at *; omega
    · have := I.slot hp g hg; have := e (isCb g)
      by_cases hh : h = g
      · subst hh; dsimp only; rw [os_set_eq q]; rw [q] at *; simp [isCb] at *; omega
      · dsimp only; rw [os_set_ne _ _ _ _ hh]; simp [isCb] at *; omega
    · have := I.cnt hp g; have := e (tk g); have := hsl hp
      by_cases hh : h = g
      · subst hh; dsimp only; rw [os_set_eq q]; simp [tk] at *; omega
      · dsimp only; rw [os_set_ne _ _ _ _ hh]; simp [tk] at *; omega
    · have := I.wrong; have := e wrong; simp [wrong] at *; omega
    · have := I.cbs g; have := e (cbOf g)
      by_cases hh : h = g
      · subst hh; dsimp only; rw [os_set_eq q]; simp [cbOf] at *; omega
      · dsimp only; rw [os_set_ne _ _ _ _ hh]; simp [cbOf, hh] at *; omega
  | runEnd j p => exact inv_simple I p .over rfl rfl (by simp [flow]) rfl (fun _ => rfl) (fun _ => rfl) (fun _ => rfl) I.bad
  | rearm i j p q =>
    have hp := strong_pos I q rfl
    exact inv_move' I p .set (by simp [heldS]) (by simp [heldW, common, hp]) (by simp [flow]) rfl (fun _ => rfl) (fun _ => rfl)
      (fun _ g h => ⟨h, rfl⟩) (acc_false I q rfl) (fun _ => hp)

theorem reach_inv {s : St} (h : Reach false s) : Inv s := by
  induction h with
  | init => exact inv_init
  | step _ st ih => exact inv_step ih st

end Verif.PoolWait
