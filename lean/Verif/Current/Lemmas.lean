import Verif.Current.Model
/-! Invariants of the model of the current runner. -/
namespace Verif.Current

@[simp] theorem upd_same {α : Type} (f : Nat → α) (i : Nat) (x : α) : upd f i x i = x := by simp [upd]
theorem upd_other {α : Type} (f : Nat → α) (i j : Nat) (x : α) (h : j ≠ i) : upd f i x j = f j := by simp [upd, h]

/-- The stack agrees with the current runner `c`: everything from the last clean-up on belongs to `c`, and user code called by a runner lies directly on a call that holds that runner. -/
def Fits (c : Option Nat) : List Frame → Prop
  | [] => True
  | .exec r :: l => c = some r ∧ l = []
  | .tidy _ :: l => l = []
  | .main r :: l => c = some r ∧ l = []
  | .loop r :: l => c = some r ∧ Fits c l
  | .proc r :: l => c = some r ∧ Fits c l
  | .call r :: l => c = some r ∧ Fits c l ∧ ∃ f m, l = f :: m ∧ f.holds r
  | .dtor :: l => ∃ r, l = [.tidy r]

theorem get_some {s : St} {t r : Nat} (h : get s t = some r) : s.cur t = some r ∧ Alive s r := by
  unfold get at h
  split at h
  · cases h
  · rename_i x e
    split at h
    · rename_i ha
      cases h
      exact ⟨e, ha⟩
    · cases h

theorem get_of {s : St} {t r : Nat} (h : s.cur t = some r) (ha : Alive s r) : get s t = some r := by
  unfold get
  rw [h]
  simp [ha]

theorem get_none {s : St} {t r : Nat} (h : get s t = none) (e : s.cur t = some r) : ¬ Alive s r := by
  intro ha
  rw [get_of e ha] at h
  cases h

/-- a stack that fits and has no owner for the current runner is empty or inside a clean-up: `c` may change -/
theorem Fits.change {c c' : Option Nat} {l : List Frame} {t : Nat} {pool : Nat → Bool} (h : Fits c l) (hu : User pool t l)
    (hd : ∀ r, c = some r → ∀ f, f ∈ l → ¬ f.holds r) : Fits c' l := by
  match l with
  | [] => trivial
  | .call r :: l =>
    obtain ⟨hc, _, f, m, e, hf⟩ := h
    exact absurd hf (hd r hc f (by rw [e]; simp))
  | .dtor :: l => exact h
  | .exec _ :: _ => exact hu.elim
  | .tidy _ :: _ => exact hu.elim
  | .main _ :: _ => exact hu.elim
  | .loop _ :: _ => exact hu.elim
  | .proc _ :: _ => exact hu.elim

theorem Fits.user {c : Option Nat} {f : Frame} {l : List Frame} {r : Nat} (h : Fits c (f :: l)) (hf : f.calls r) : c = some r ∧ f.holds r := by
  cases f <;> simp only [Frame.calls] at hf <;> simp_all [Fits, Frame.holds]

theorem Fits.mem_call {c : Option Nat} {l : List Frame} {r : Nat} (h : Fits c l) (hm : .call r ∈ l) : c = some r ∧ ∃ f, f ∈ l ∧ f.holds r := by
  induction l with
  | nil => cases hm
  | cons g l ih =>
    cases g with
    | exec x => obtain ⟨_, rfl⟩ := h; simp at hm
    | tidy x => simp only [Fits] at h; subst h; simp at hm
    | main x => obtain ⟨_, rfl⟩ := h; simp at hm
    | loop x =>
      have hm' : Frame.call r ∈ l := by simpa using hm
      obtain ⟨a, f, b, d⟩ := ih h.2 hm'
      exact ⟨a, f, List.mem_cons_of_mem _ b, d⟩
    | proc x =>
      have hm' : Frame.call r ∈ l := by simpa using hm
      obtain ⟨a, f, b, d⟩ := ih h.2 hm'
      exact ⟨a, f, List.mem_cons_of_mem _ b, d⟩
    | call x =>
      obtain ⟨hc, hl, f, m, e, hf⟩ := h
      rcases List.mem_cons.mp hm with e' | hm'
      · cases e'
        exact ⟨hc, f, by rw [e]; simp, hf⟩
      · obtain ⟨a, f, b, d⟩ := ih hl hm'
        exact ⟨a, f, List.mem_cons_of_mem _ b, d⟩
    | dtor =>
      obtain ⟨x, rfl⟩ := h
      simp at hm

/-- a frame that holds a runner holds the current one -/
theorem Fits.mem_holds {c : Option Nat} {l : List Frame} {r : Nat} {f : Frame} (h : Fits c l) (hm : f ∈ l) (hf : f.holds r) : c = some r := by
  induction l with
  | nil => cases hm
  | cons g l ih =>
    cases g with
    | exec x =>
      obtain ⟨hc, rfl⟩ := h
      simp at hm; subst hm
      simp only [Frame.holds] at hf; subst hf; exact hc
    | tidy x =>
      simp only [Fits] at h; subst h
      simp at hm; subst hm
      exact hf.elim
    | main x =>
      obtain ⟨hc, rfl⟩ := h
      simp at hm; subst hm
      simp only [Frame.holds] at hf; subst hf; exact hc
    | loop x =>
      rcases List.mem_cons.mp hm with e | hm'
      · subst e
        simp only [Frame.holds] at hf; subst hf; exact h.1
      · exact ih h.2 hm'
    | proc x =>
      rcases List.mem_cons.mp hm with e | hm'
      · subst e
        simp only [Frame.holds] at hf; subst hf; exact h.1
      · exact ih h.2 hm'
    | call x =>
      rcases List.mem_cons.mp hm with e | hm'
      · subst e; exact hf.elim
      · exact ih h.2.1 hm'
    | dtor =>
      obtain ⟨x, rfl⟩ := h
      simp at hm
      rcases hm with e | e <;> subst e <;> exact hf.elim

theorem Fits.tail {c : Option Nat} {f : Frame} {l : List Frame} (h : Fits c (f :: l)) : Fits c l := by
  cases f with
  | exec x => rw [h.2]; trivial
  | tidy x => simp only [Fits] at h; rw [h]; trivial
  | main x => rw [h.2]; trivial
  | loop x => exact h.2
  | proc x => exact h.2
  | call x => exact h.2.1
  | dtor => obtain ⟨x, rfl⟩ := h; simp [Fits]

/-- runners that keep to one thread -/
def Fixed (k : Kind) : Prop := k = .thr ∨ k = .proxy

structure Inv (s : St) : Prop where
  fits : ∀ t, Fits (s.cur t) (s.stk t)
  /-- only runners that were made -/
  known : ∀ t r, s.cur t = some r → r < s.made
  fresh : ∀ r, s.made ≤ r → s.own r = 0 ∧ s.work r = 0
  /-- a runner with a thread of its own is the current one of at most one thread, and of none before its work item is taken -/
  one : ∀ t t' r, Fixed (s.kind r) → s.cur t = some r → s.cur t' = some r → t = t'
  item : ∀ t r, Fixed (s.kind r) → s.cur t = some r → s.work r = 0
  single : ∀ r, Fixed (s.kind r) → s.work r ≤ 1
  loops : ∀ t r, .loop r ∈ s.stk t → Fixed (s.kind r)

theorem fixed_iff (k : Kind) : hasFlags (style k) fixedBit = true ↔ Fixed k := by
  cases k <;> simp [Fixed, style, hasFlags, fixedBit, sequencedBit]

theorem Inv.aliveKnown {s : St} (h : Inv s) {r : Nat} (ha : Alive s r) : r < s.made := by
  rcases Nat.lt_or_ge r s.made with hl | hl
  · exact hl
  · obtain ⟨a, b⟩ := h.fresh r hl
    rcases ha with ho | hw | ⟨t, f, hm, hf⟩
    · omega
    · omega
    · exact h.known t r ((h.fits t).mem_holds hm hf)

/-- a change of one stack -/
theorem Inv.setStk {s : St} (h : Inv s) {t : Nat} {l : List Frame} (hf : Fits (s.cur t) l) (hl : ∀ r, .loop r ∈ l → Fixed (s.kind r)) :
    Inv { s with stk := upd s.stk t l } where
  fits u := by
    by_cases e : u = t
    · subst e; simpa using hf
    · simpa [upd_other _ _ _ _ e] using h.fits u
  known := h.known
  fresh := h.fresh
  one := h.one
  item := h.item
  single := h.single
  loops u r hm := by
    by_cases e : u = t
    · subst e
      simp only [upd_same] at hm
      exact hl r hm
    · simp only [upd_other _ _ _ _ e] at hm
      exact h.loops u r hm

/-- a new runner -/
theorem Inv.new {s : St} (h : Inv s) (k : Kind) (a b : Nat) (hb : b ≤ 1) : Inv (s.new k a b) := by
  have hne : ∀ t r, s.cur t = some r → r ≠ s.made := fun t r e => Nat.ne_of_lt (h.known t r e)
  have hkind : ∀ r, r ≠ s.made → (s.new k a b).kind r = s.kind r := fun r e => by simp [St.new, upd_other _ _ _ _ e]
  constructor
  · exact h.fits
  · intro t r e
    have := h.known t r e
    show r < s.made + 1
    omega
  · intro r e
    have e' : s.made + 1 ≤ r := e
    have hn : r ≠ s.made := by omega
    have := h.fresh r (by omega)
    simpa [St.new, upd_other _ _ _ _ hn] using this
  · intro t t' r hf e e'
    rw [hkind r (hne t r e)] at hf
    exact h.one t t' r hf e e'
  · intro t r hf e
    have hn := hne t r e
    rw [hkind r hn] at hf
    have := h.item t r hf e
    simpa [St.new, upd_other _ _ _ _ hn] using this
  · intro r hf
    by_cases e : r = s.made
    · subst e; simpa [St.new] using hb
    · rw [hkind r e] at hf
      have := h.single r hf
      simpa [St.new, upd_other _ _ _ _ e] using this
  · intro t r hm
    have hm' : Frame.loop r ∈ s.stk t := hm
    have hc := (h.fits t).mem_holds hm' (show Frame.holds (.loop r) r from rfl)
    rw [hkind r (hne t r hc)]
    exact h.loops t r hm'

/-- a change of the owners -/
theorem Inv.setOwn {s : St} (h : Inv s) (r n : Nat) (hr : r < s.made) : Inv { s with own := upd s.own r n } where
  fits := h.fits
  known := h.known
  fresh x e := by
    have : x ≠ r := by have : s.made ≤ x := e; omega
    simpa [upd_other _ _ _ _ this] using h.fresh x e
  one := h.one
  item := h.item
  single := h.single
  loops := h.loops

theorem Inv.ownKnown {s : St} (h : Inv s) {r : Nat} (ho : 0 < s.own r) : r < s.made := h.aliveKnown (.inl ho)

/-- the pool calls a runner -/
theorem Inv.start {s : St} (h : Inv s) {t r : Nat} (f : Frame) (hs : s.stk t = []) (hw : 0 < s.work r) (hf : f = .exec r ∨ f = .main r) :
    Inv { s with work := upd s.work r (s.work r - 1), cur := upd s.cur t (some r), stk := upd s.stk t [f] } := by
  have hr : r < s.made := h.aliveKnown (.inr (.inl hw))
  constructor
  · intro u
    by_cases e : u = t
    · subst e
      rcases hf with rfl | rfl <;> simp [Fits]
    · simpa [upd_other _ _ _ _ e] using h.fits u
  · intro u x e
    by_cases eu : u = t
    · subst eu
      simp at e
      subst e
      exact hr
    · simp only [upd_other _ _ _ _ eu] at e
      exact h.known u x e
  · intro x e
    have : x ≠ r := by have : s.made ≤ x := e; omega
    simpa [upd_other _ _ _ _ this] using h.fresh x e
  · intro u u' x hk e e'
    -- before the work item was taken no thread had the runner
    have key : ∀ v, s.cur v = some r → Fixed (s.kind r) → False := fun v ev hk => by
      have := h.item v r hk ev
      omega
    by_cases eu : u = t
    · by_cases eu' : u' = t
      · rw [eu, eu']
      · subst eu
        simp at e
        subst e
        simp only [upd_other _ _ _ _ eu'] at e'
        exact (key u' e' hk).elim
    · simp only [upd_other _ _ _ _ eu] at e
      by_cases eu' : u' = t
      · subst eu'
        simp at e'
        subst e'
        exact (key u e hk).elim
      · simp only [upd_other _ _ _ _ eu'] at e'
        exact h.one u u' x hk e e'
  · intro u x hk e
    show upd s.work r (s.work r - 1) x = 0
    by_cases ex : x = r
    · subst ex
      have := h.single x hk
      simp
      omega
    · rw [upd_other _ _ _ _ ex]
      by_cases eu : u = t
      · subst eu
        simp at e
        exact absurd e.symm ex
      · simp only [upd_other _ _ _ _ eu] at e
        exact h.item u x hk e
  · intro x hk
    show upd s.work r (s.work r - 1) x ≤ 1
    by_cases ex : x = r
    · subst ex
      have := h.single x hk
      simp
      omega
    · rw [upd_other _ _ _ _ ex]
      exact h.single x hk
  · intro u x hm
    by_cases eu : u = t
    · subst eu
      rcases hf with rfl | rfl <;> simp at hm
    · simp only [upd_other _ _ _ _ eu] at hm
      exact h.loops u x hm

/-- `g_pTaskRunnerWeak = nullptr` -/
theorem Inv.clear {s : St} (h : Inv s) {t : Nat} (l : List Frame) (hf : Fits none l) (hl : ∀ r, .loop r ∈ l → Fixed (s.kind r)) :
    Inv { s with cur := upd s.cur t none, stk := upd s.stk t l } := by
  have hc : ∀ u x, upd s.cur t none u = some x → s.cur u = some x := fun u x e => by
    by_cases eu : u = t
    · subst eu; simp at e
    · simpa [upd_other _ _ _ _ eu] using e
  constructor
  · intro u
    by_cases e : u = t
    · subst e; simpa using hf
    · simpa [upd_other _ _ _ _ e] using h.fits u
  · exact fun u x e => h.known u x (hc u x e)
  · exact h.fresh
  · exact fun u u' x hk e e' => h.one u u' x hk (hc u x e) (hc u' x e')
  · exact fun u x hk e => h.item u x hk (hc u x e)
  · exact h.single
  · intro u r hm
    by_cases e : u = t
    · subst e
      simp only [upd_same] at hm
      exact hl r hm
    · simp only [upd_other _ _ _ _ e] at hm
      exact h.loops u r hm

theorem Inv.bind {s : St} (h : Inv s) {pool : Nat → Bool} {t : Nat} (k : Kind) (hu : User pool t (s.stk t)) (hg : get s t = none) :
    Inv { s.new k 1 0 with cur := upd s.cur t (some s.made) } := by
  have h' := h.new k 1 0 (by omega)
  have hdead : ∀ r, s.cur t = some r → ∀ f, f ∈ s.stk t → ¬ f.holds r :=
    fun r e f hm hf => get_none hg e (.inr (.inr ⟨t, f, hm, hf⟩))
  have hc : ∀ u x, upd s.cur t (some s.made) u = some x → x ≠ s.made → s.cur u = some x := fun u x e hn => by
    by_cases eu : u = t
    · subst eu
      simp at e
      exact absurd e.symm hn
    · simpa [upd_other _ _ _ _ eu] using e
  have hc' : ∀ u, upd s.cur t (some s.made) u = some s.made → u = t := fun u e => by
    by_cases eu : u = t
    · exact eu
    · simp only [upd_other _ _ _ _ eu] at e
      exact absurd (h.known u _ e) (by omega)
  constructor
  · intro u
    by_cases e : u = t
    · subst e
      simp only [upd_same]
      exact (h.fits u).change hu hdead
    · simpa [upd_other _ _ _ _ e, St.new] using h.fits u
  · intro u x e
    show x < s.made + 1
    by_cases hn : x = s.made
    · omega
    · have := h.known u x (hc u x e hn)
      omega
  · exact h'.fresh
  · intro u u' x hk e e'
    by_cases hn : x = s.made
    · subst hn
      rw [hc' u e, hc' u' e']
    · exact h'.one u u' x hk (hc u x e hn) (hc u' x e' hn)
  · intro u x hk e
    by_cases hn : x = s.made
    · subst hn
      simp [St.new]
    · exact h'.item u x hk (hc u x e hn)
  · exact h'.single
  · exact h'.loops

theorem Inv.step {s s' : St} {pool : Nat → Bool} (h : Inv s) (hs : Step pool s s') : Inv s' := by
  have top : ∀ {t : Nat} {f : Frame} {l : List Frame}, s.stk t = f :: l → Inv { s with stk := upd s.stk t l } := fun {t f l} e =>
    h.setStk ((e ▸ h.fits t : Fits (s.cur t) (f :: l)).tail) fun r hm => h.loops t r (by rw [e]; exact List.mem_cons_of_mem _ hm)
  cases hs with
  | create k hk => exact h.new k 1 0 (by omega)
  | createThread => exact h.new .thr 1 1 (by omega)
  | createFailed => exact h.new .thr 0 0 (by omega)
  | bind t k hu hg hk => exact h.bind k hu hg
  | copy r ho => exact h.setOwn r _ (h.ownKnown ho)
  | keep t r hu hg => exact h.setOwn r _ (h.known t r (get_some hg).1)
  | drop r ho => exact h.setOwn r _ (h.ownKnown ho)
  | submit r ha hk =>
    have hr := h.aliveKnown ha
    have hx : ∀ x, Fixed (s.kind x) → x ≠ r := by
      rintro x hf rfl
      rcases hk with hk | hk <;> rw [hk] at hf <;> rcases hf with hf | hf <;> cases hf
    constructor
    · exact h.fits
    · exact h.known
    · intro x e
      have : x ≠ r := by have : s.made ≤ x := e; omega
      simpa [upd_other _ _ _ _ this] using h.fresh x e
    · exact h.one
    · intro t x hf e
      simpa [upd_other _ _ _ _ (hx x hf)] using h.item t x hf e
    · intro x hf
      simpa [upd_other _ _ _ _ (hx x hf)] using h.single x hf
    · exact h.loops
  | exec t r hp hs hw hk => exact h.start (.exec r) hs hw (.inl rfl)
  | main t r hp hs hw hk => exact h.start (.main r) hs hw (.inr rfl)
  | call t r f l e hf =>
    have hfit : Fits (s.cur t) (f :: l) := e ▸ h.fits t
    obtain ⟨hc, hh⟩ := hfit.user hf
    refine h.setStk ⟨hc, hfit, f, l, rfl, hh⟩ fun x hm => h.loops t x ?_
    rw [e]
    simpa using hm
  | ret t r l e => exact top e
  | leave t r l e =>
    have hfit : Fits (s.cur t) (.exec r :: l) := e ▸ h.fits t
    refine h.clear (.tidy r :: l) hfit.2 fun x hm => h.loops t x ?_
    rw [e]
    simpa using hm
  | dtor t r l e =>
    have hfit : Fits (s.cur t) (.tidy r :: l) := e ▸ h.fits t
    refine h.setStk ⟨r, ?_⟩ fun x hm => h.loops t x ?_
    · simp only [Fits] at hfit
      rw [hfit]
    · rw [e]
      simpa using hm
  | dtorEnd t l e => exact top e
  | tidyEnd t r l e => exact top e
  | mainEnd t r l e =>
    have hfit : Fits (s.cur t) (.main r :: l) := e ▸ h.fits t
    refine h.clear l ?_ fun x hm => ?_
    · rw [hfit.2]; trivial
    · rw [hfit.2] at hm; cases hm
  | loop t r hu hg hf =>
    refine h.setStk ⟨(get_some hg).1, h.fits t⟩ fun x hm => ?_
    rcases List.mem_cons.mp hm with e | hm'
    · cases e
      exact (fixed_iff _).mp hf
    · exact h.loops t x hm'
  | loopEnd t r l e => exact top e
  | proc t r hu hg hk =>
    refine h.setStk ⟨(get_some hg).1, h.fits t⟩ fun x hm => h.loops t x ?_
    simpa using hm
  | procEnd t r l e => exact top e

theorem Inv.reach {s : St} {pool : Nat → Bool} (h : Reach pool s) : Inv s := by
  induction h with
  | start => exact ⟨fun _ => trivial, fun _ _ e => by simp at e, fun _ _ => ⟨rfl, rfl⟩, fun _ _ _ _ e => by simp at e, fun _ _ _ e => by simp at e,
      fun _ _ => by simp, fun _ _ hm => by simp at hm⟩
  | step _ hs ih => exact ih.step hs

end Verif.Current
