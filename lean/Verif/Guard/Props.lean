import Verif.Guard.Model

/-! C90: guards of locks and cleanup guards. -/

namespace Verif.Guard

/-! ### single runs -/

/-- the specification of nesting: a stack of what is open, from the events alone -/
inductive Open where
  | lk (h : Hold)
  | cl (k : Nat)
deriving DecidableEq

def nest : List Open → List Ev → Option (List Open)
  | st, [] => some st
  | st, .act _ :: t => nest st t
  | st, .acq h :: t => nest (.lk h :: st) t
  | st, .make k :: t => nest (.cl k :: st) t
  | .lk g :: st, .rel h :: t => if g = h then nest st t else none
  | .cl j :: st, .clean k :: t => if j = k then nest st t else none
  | _, _ => none

theorem nest_append : ∀ (t : List Ev) (st : List Open) (u : List Ev), nest st (t ++ u) = (nest st t).bind fun s => nest s u
  | [], st, u => by simp [nest]
  | e :: t, st, u => by
    cases e with
    | act n => simp only [List.cons_append, nest]; exact nest_append t st u
    | acq h => simp only [List.cons_append, nest]; exact nest_append t _ u
    | make k => simp only [List.cons_append, nest]; exact nest_append t _ u
    | rel h =>
      match st with
      | [] => simp [nest]
      | .cl j :: st => simp [nest]
      | .lk g :: st =>
        simp only [List.cons_append, nest]
        split
        · exact nest_append t st u
        · rfl
    | clean k =>
      match st with
      | [] => simp [nest]
      | .lk g :: st => simp [nest]
      | .cl j :: st =>
        simp only [List.cons_append, nest]
        split
        · exact nest_append t st u
        · rfl

/-- **C90: on every way out of a block (end, `return`, exception) each guard is undone exactly once, in the reverse order of construction.** -/
theorem C90_nested {p : Prog} {t : List Ev} {n : Bool} (hp : p.noCopies) (r : Runs p t n) : ∀ st, nest st t = some st := by
  induction r with
  | act n => intro st; rfl
  | exit => intro st; rfl
  | seq _ _ ih1 ih2 => intro st; rw [nest_append, ih1 hp.1, Option.bind_some, ih2 hp.2]
  | seqExit _ ih => exact ih hp.1
  | left _ ih => exact ih hp.1
  | right _ ih => exact ih hp.2
  | loopEnd => intro st; rfl
  | loop _ _ ih1 ih2 => intro st; rw [nest_append, ih1 hp, Option.bind_some, ih2 hp]
  | loopExit _ ih => exact ih hp
  | quiet _ ih => exact ih hp.1
  | caught _ _ ih1 ih2 => intro st; rw [nest_append, ih1 hp.1, Option.bind_some, ih2 hp.2]
  | lock _ ih =>
    intro st
    rw [List.cons_append, nest, nest_append, ih hp, Option.bind_some]
    simp [nest]
  | clean _ ih =>
    intro st
    rw [List.cons_append, nest, nest_append, ih hp.2, Option.bind_some, hp.1]
    simp [nest]

/-- how often the callback of the cleanup guard `k` is called, and how often such a guard is made -/
def calls (k : Nat) (t : List Ev) : Nat := t.count (.clean k)
def makes (k : Nat) (t : List Ev) : Nat := t.count (.make k)

/-- **C90: every cleanup callback runs exactly once for each guard made.** -/
theorem C90_once {p : Prog} {t : List Ev} {n : Bool} (hp : p.noCopies) (r : Runs p t n) (k : Nat) : calls k t = makes k t := by
  unfold calls makes
  induction r with
  | act n => simp
  | exit => simp
  | seq _ _ ih1 ih2 => rw [List.count_append, List.count_append, ih1 hp.1, ih2 hp.2]
  | seqExit _ ih => exact ih hp.1
  | left _ ih => exact ih hp.1
  | right _ ih => exact ih hp.2
  | loopEnd => simp
  | loop _ _ ih1 ih2 => rw [List.count_append, List.count_append, ih1 hp, ih2 hp]
  | loopExit _ ih => exact ih hp
  | quiet _ ih => exact ih hp.1
  | caught _ _ ih1 ih2 => rw [List.count_append, List.count_append, ih1 hp.1, ih2 hp.2]
  | lock _ ih => simp only [List.cons_append, List.count_cons, List.count_append]; rw [ih hp]; simp
  | @clean j c b t n _ ih =>
    have := ih hp.2
    simp only [List.cons_append, List.count_cons, List.count_append, hp.1, List.replicate]
    rw [this]
    by_cases h : j = k <;> simp [h]

theorem count_make (k j n : Nat) : (List.replicate n (Ev.clean j)).count (.make k) = 0 :=
  List.count_eq_zero_of_not_mem fun hm => by have := List.eq_of_mem_replicate hm; cases this

/-- callbacks are never called less often than guards are made -/
theorem calls_ge {p : Prog} {t : List Ev} {n : Bool} (r : Runs p t n) (k : Nat) : makes k t ≤ calls k t := by
  unfold calls makes
  induction r with
  | act n => simp
  | exit => simp
  | seq _ _ ih1 ih2 => rw [List.count_append, List.count_append]; omega
  | seqExit _ ih => exact ih
  | left _ ih => exact ih
  | right _ ih => exact ih
  | loopEnd => simp
  | loop _ _ ih1 ih2 => rw [List.count_append, List.count_append]; omega
  | loopExit _ ih => exact ih
  | quiet _ ih => exact ih
  | caught _ _ ih1 ih2 => rw [List.count_append, List.count_append]; omega
  | lock _ ih => simpa [List.count_cons, List.count_append] using ih
  | @clean j c b t n _ ih =>
    simp only [List.cons_append, List.count_cons, List.count_append, count_make]
    by_cases h : j = k
    · subst h; simp; omega
    · simp [h]; omega

/-- **C90 is false where `_HAS_CXX17` is not 1** (every compiler whose library does not define it, whatever the language version): each copy of a guard calls the callback again, in every run. -/
theorem C90_copy_fails {k c : Nat} {b : Prog} {t : List Ev} {n : Bool} (hc : 0 < c) (r : Runs (.clean k c b) t n) : makes k t < calls k t := by
  cases r with
  | @clean _ _ _ u _ rb =>
    have := calls_ge rb k
    unfold makes calls at *
    simp only [List.cons_append, List.count_cons, List.count_append, count_make]
    simp
    omega

/-! ### threads -/

/-- the lock guards of a nesting, innermost first -/
def locksOf : List Open → List Hold
  | [] => []
  | .lk h :: st => h :: locksOf st
  | .cl _ :: st => locksOf st

/-- what a thread still has to do fits what it holds -/
def ThOk (th : Th) : Prop := ∃ st, locksOf st = th.held ∧ nest st th.rest = some []

/-- two different threads never hold a lock in a conflicting way -/
def Excl (s : St) : Prop :=
  ∀ (i j : Nat) a b, i ≠ j → s.ths[i]? = some a → s.ths[j]? = some b → ∀ g ∈ a.held, ∀ h ∈ b.held, g.l = h.l → g.x = false ∧ h.x = false

structure Inv (s : St) : Prop where
  good : s.bad = false
  ths : ∀ (i : Nat) th, s.ths[i]? = some th → ThOk th
  excl : Excl s

theorem get_set {α : Type} {l : List α} {i j : Nat} {x y : α} (h : (l.set i x)[j]? = some y) : (i = j ∧ y = x) ∨ (i ≠ j ∧ l[j]? = some y) := by
  rw [List.getElem?_set] at h
  split at h
  · rename_i e
    split at h
    · cases h; exact .inl ⟨e, rfl⟩
    · cases h
  · rename_i e; exact .inr ⟨e, h⟩

/-- a guard less, or as many, in thread `i`: exclusion stays -/
theorem excl_sub {s : St} {i : Nat} {th th' : Th} (h : Excl s) (hi : s.ths[i]? = some th) (hs : ∀ g ∈ th'.held, g ∈ th.held) (b : Bool) : Excl ⟨s.ths.set i th', b⟩ := by
  intro j k a c hjk ha hc g hg x hx e
  rcases get_set ha with ⟨rfl, rfl⟩ | ⟨_, ha'⟩ <;> rcases get_set hc with ⟨rfl, rfl⟩ | ⟨_, hc'⟩
  · exact absurd rfl hjk
  · exact h _ _ _ _ hjk hi hc' g (hs g hg) x hx e
  · exact h _ _ _ _ hjk ha' hi g hg x (hs x hx) e
  · exact h _ _ _ _ hjk ha' hc' g hg x hx e

theorem inv_step {s t : St} (h : Inv s) (hs : Step s t) : Inv t := by
  cases hs with
  | @plain i th e r hi hr n1 n2 =>
    refine ⟨h.good, ?_, excl_sub (th' := { th with rest := r }) h.excl hi (fun g hg => hg) _⟩
    intro j x hx
    rcases get_set hx with ⟨rfl, rfl⟩ | ⟨_, hx⟩
    · obtain ⟨st, hl, hn⟩ := h.ths _ _ hi
      rw [hr] at hn
      cases e with
      | act n => exact ⟨st, hl, hn⟩
      | acq g => exact absurd rfl (n1 g)
      | rel g => exact absurd rfl (n2 g)
      | make k => exact ⟨.cl k :: st, hl, hn⟩
      | clean k =>
        match st, hl, hn with
        | [], _, hn => simp [nest] at hn
        | .lk g :: st, _, hn => simp [nest] at hn
        | .cl j :: st, hl, hn =>
          simp only [nest] at hn
          split at hn
          · exact ⟨st, hl, hn⟩
          · cases hn
    · exact h.ths _ _ hx
  | @acq i th g r hi hr hf =>
    refine ⟨h.good, ?_, ?_⟩
    · intro j x hx
      rcases get_set hx with ⟨rfl, rfl⟩ | ⟨_, hx⟩
      · obtain ⟨st, hl, hn⟩ := h.ths _ _ hi
        rw [hr] at hn
        exact ⟨.lk g :: st, by simp [locksOf, hl], hn⟩
      · exact h.ths _ _ hx
    · intro j k a c hjk ha hc u hu v hv e
      rcases get_set ha with ⟨rfl, rfl⟩ | ⟨_, ha'⟩ <;> rcases get_set hc with ⟨rfl, rfl⟩ | ⟨_, hc'⟩
      · exact absurd rfl hjk
      · rcases List.mem_cons.1 hu with rfl | hu
        · exact (hf c (List.mem_of_getElem? hc') v hv e.symm).symm
        · exact h.excl _ _ _ _ hjk hi hc' u hu v hv e
      · rcases List.mem_cons.1 hv with rfl | hv
        · exact hf a (List.mem_of_getElem? ha') u hu e
        · exact h.excl _ _ _ _ hjk ha' hi u hu v hv e
      · exact h.excl _ _ _ _ hjk ha' hc' u hu v hv e
  | @rel i th g r hi hr hm =>
    refine ⟨h.good, ?_, excl_sub h.excl hi (fun x hx => List.mem_of_mem_erase hx) _⟩
    intro j x hx
    rcases get_set hx with ⟨rfl, rfl⟩ | ⟨_, hx⟩
    · obtain ⟨st, hl, hn⟩ := h.ths _ _ hi
      rw [hr] at hn
      match st, hl, hn with
      | [], _, hn => simp [nest] at hn
      | .cl j :: st, _, hn => simp [nest] at hn
      | .lk u :: st, hl, hn' =>
        simp only [nest] at hn'
        by_cases e : u = g
        · subst e
          rw [if_pos rfl] at hn'
          refine ⟨st, ?_, hn'⟩
          rw [← hl]; simp [locksOf]
        · rw [if_neg e] at hn'; cases hn'
    · exact h.ths _ _ hx
  | @relBad i th g r hi hr hm =>
    exfalso
    obtain ⟨st, hl, hn⟩ := h.ths _ _ hi
    rw [hr] at hn
    match st, hl, hn with
    | [], _, hn => simp [nest] at hn
    | .cl j :: st, _, hn => simp [nest] at hn
    | .lk u :: st, hl, hn =>
      simp only [nest] at hn
      split at hn
      · rename_i e; subst e
        apply hm; rw [← hl]; simp [locksOf]
      · cases hn

theorem inv_start {ps : List Prog} {s : St} (hp : ∀ p ∈ ps, p.noCopies) (h : Starts ps s) : Inv s := by
  refine ⟨h.1, ?_, ?_⟩
  · intro i th hi
    obtain ⟨p, n, e, hh, r⟩ := h.2.2 i th hi
    exact ⟨[], hh.symm, C90_nested (hp p (List.mem_of_getElem? e)) r []⟩
  · intro i j a b _ ha _ g hg
    obtain ⟨_, _, _, hh, _⟩ := h.2.2 i a ha
    rw [hh] at hg; cases hg

theorem inv_steps {s t : St} (h : Inv s) (r : Steps s t) : Inv t := by
  induction r with
  | refl => exact h
  | tail _ hs ih => exact inv_step ih hs

/-- **C90: with any number of threads running any programs with lock guards, at every moment an exclusively held lock is held by one thread only; no lock is released by a thread that does not hold it; and
when all threads are through, no lock is held.** -/
theorem C90_exclusion {ps : List Prog} {s t : St} (hp : ∀ p ∈ ps, p.noCopies) (h : Starts ps s) (r : Steps s t) :
    t.bad = false ∧
    (∀ (i j : Nat) a b, i ≠ j → t.ths[i]? = some a → t.ths[j]? = some b → ∀ g ∈ a.held, g.x = true → ∀ h ∈ b.held, h.l ≠ g.l) ∧
    (Done t → ∀ th ∈ t.ths, th.held = []) := by
  have I := inv_steps (inv_start hp h) r
  refine ⟨I.good, ?_, ?_⟩
  · intro i j a b hij ha hb g hg hx k hk e
    have := (I.excl i j a b hij ha hb g hg k hk e.symm).1
    rw [hx] at this; cases this
  · intro hd th hth
    obtain ⟨i, hi⟩ := List.getElem?_of_mem hth
    obtain ⟨st, hl, hn⟩ := I.ths i th hi
    rw [hd th hth] at hn
    simp only [nest, Option.some.injEq] at hn
    rw [← hl, hn]; rfl

/-! ### deadlock -/

/-- the stack of a thread that respects the order: the innermost lock is the greatest -/
def below (b : Nat) : List Open → Prop
  | [] => True
  | .lk h :: st => h.l < b ∧ below b st
  | .cl _ :: st => below b st

/-- every request in `t` is for a lock greater than all that are held then -/
def OrdFrom : List Open → List Ev → Prop
  | _, [] => True
  | st, .act _ :: t => OrdFrom st t
  | st, .acq h :: t => below h.l st ∧ OrdFrom (.lk h :: st) t
  | st, .make k :: t => OrdFrom (.cl k :: st) t
  | _ :: st, .rel _ :: t => OrdFrom st t
  | _ :: st, .clean _ :: t => OrdFrom st t
  | [], _ :: _ => True

theorem below_mono {b c : Nat} (h : b ≤ c) : ∀ {st}, below b st → below c st
  | [], _ => trivial
  | .lk _ :: st, hb => ⟨Nat.lt_of_lt_of_le hb.1 h, below_mono h (st := st) hb.2⟩
  | .cl _ :: st, hb => below_mono h (st := st) hb

theorem ord_append : ∀ (t : List Ev) (st st' : List Open) (u : List Ev), OrdFrom st t → nest st t = some st' → OrdFrom st' u → OrdFrom st (t ++ u)
  | [], st, st', u, _, hn, hu => by simp only [nest, Option.some.injEq] at hn; subst hn; exact hu
  | e :: t, st, st', u, ht, hn, hu => by
    cases e with
    | act n => exact ord_append t st st' u (by simpa [OrdFrom] using ht) hn hu
    | acq h => simp only [OrdFrom] at ht; exact ⟨ht.1, ord_append t _ st' u ht.2 hn hu⟩
    | make k => exact ord_append t (.cl k :: st) st' u (by simpa [OrdFrom] using ht) hn hu
    | rel h =>
      match st, hn, ht with
      | [], hn, _ => simp [nest] at hn
      | .cl j :: st, hn, _ => simp [nest] at hn
      | .lk g :: st, hn, ht =>
        simp only [nest] at hn
        split at hn
        · exact ord_append t st st' u ht hn hu
        · cases hn
    | clean k =>
      match st, hn, ht with
      | [], hn, _ => simp [nest] at hn
      | .lk g :: st, hn, _ => simp [nest] at hn
      | .cl j :: st, hn, ht =>
        simp only [nest] at hn
        split at hn
        · exact ord_append t st st' u ht hn hu
        · cases hn

theorem ord_run {p : Prog} {t : List Ev} {n : Bool} (r : Runs p t n) : p.noCopies → ∀ {b : Nat} {st : List Open}, p.ordered b → below b st → OrdFrom st t := by
  induction r with
  | act n => intro _ b st _ _; trivial
  | exit => intro _ b st _ _; exact (by cases st <;> trivial)
  | seq r1 _ ih1 ih2 => intro hp b st ho hb; exact ord_append _ _ _ _ (ih1 hp.1 ho.1 hb) (C90_nested hp.1 r1 st) (ih2 hp.2 ho.2 hb)
  | seqExit _ ih => intro hp b st ho hb; exact ih hp.1 ho.1 hb
  | left _ ih => intro hp b st ho hb; exact ih hp.1 ho.1 hb
  | right _ ih => intro hp b st ho hb; exact ih hp.2 ho.2 hb
  | loopEnd => intro _ b st _ _; exact (by cases st <;> trivial)
  | @loop p _ _ _ r1 _ ih1 ih2 => intro hp b st ho hb; exact ord_append _ _ _ _ (ih1 hp ho hb) (C90_nested (p := p) hp r1 st) (ih2 hp ho hb)
  | loopExit _ ih => intro hp b st ho hb; exact ih hp ho hb
  | quiet _ ih => intro hp b st ho hb; exact ih hp.1 ho.1 hb
  | caught r1 _ ih1 ih2 => intro hp b st ho hb; exact ord_append _ _ _ _ (ih1 hp.1 ho.1 hb) (C90_nested hp.1 r1 st) (ih2 hp.2 ho.2 hb)
  | @lock h q t n r1 ih =>
    intro hp b st ho hb
    refine ⟨below_mono ho.1 hb, ?_⟩
    refine ord_append _ _ (.lk h :: st) _ (ih hp ho.2 ⟨Nat.lt_succ_self _, below_mono (Nat.le_succ_of_le ho.1) hb⟩) (C90_nested (p := q) hp r1 _) ?_
    exact (by cases st <;> trivial)
  | @clean k c q t n r1 ih =>
    intro hp b st ho hb
    refine ord_append _ _ (.cl k :: st) _ (ih hp.2 ho hb) (C90_nested hp.2 r1 _) ?_
    rw [hp.1]
    exact (by cases st <;> trivial)

/-- as `ThOk`, with the order -/
def ThOrd (th : Th) : Prop := ∃ st, locksOf st = th.held ∧ nest st th.rest = some [] ∧ OrdFrom st th.rest

theorem ord_step {s t : St} (h : ∀ (i : Nat) th, s.ths[i]? = some th → ThOrd th) (hs : Step s t) : ∀ (i : Nat) th, t.ths[i]? = some th → ThOrd th := by
  have rel : ∀ {st : List Open} {g : Hold} {r : List Ev}, nest st (.rel g :: r) = some [] → OrdFrom st (.rel g :: r) → ∃ st', st = .lk g :: st' ∧ nest st' r = some [] ∧ OrdFrom st' r := by
    intro st g r hn ho
    match st, hn, ho with
    | [], hn, _ => simp [nest] at hn
    | .cl j :: st, hn, _ => simp [nest] at hn
    | .lk u :: st, hn', ho' =>
      simp only [nest] at hn'
      by_cases e : u = g
      · subst e; rw [if_pos rfl] at hn'; exact ⟨st, rfl, hn', ho'⟩
      · rw [if_neg e] at hn'; cases hn'
  cases hs with
  | @plain i th e r hi hr n1 n2 =>
    intro j x hx
    rcases get_set hx with ⟨rfl, rfl⟩ | ⟨_, hx⟩
    · obtain ⟨st, hl, hn, ho⟩ := h _ _ hi
      rw [hr] at hn ho
      cases e with
      | act n => exact ⟨st, hl, hn, by simpa [OrdFrom] using ho⟩
      | acq g => exact absurd rfl (n1 g)
      | rel g => exact absurd rfl (n2 g)
      | make k => exact ⟨.cl k :: st, hl, hn, by simpa [OrdFrom] using ho⟩
      | clean k =>
        match st, hl, hn, ho with
        | [], _, hn, _ => simp [nest] at hn
        | .lk g :: st, _, hn, _ => simp [nest] at hn
        | .cl j :: st, hl, hn, ho =>
          simp only [nest] at hn
          split at hn
          · exact ⟨st, hl, hn, ho⟩
          · cases hn
    · exact h _ _ hx
  | @acq i th g r hi hr hf =>
    intro j x hx
    rcases get_set hx with ⟨rfl, rfl⟩ | ⟨_, hx⟩
    · obtain ⟨st, hl, hn, ho⟩ := h _ _ hi
      rw [hr] at hn ho
      simp only [OrdFrom] at ho
      exact ⟨.lk g :: st, by simp [locksOf, hl], hn, ho.2⟩
    · exact h _ _ hx
  | @rel i th g r hi hr hm =>
    intro j x hx
    rcases get_set hx with ⟨rfl, rfl⟩ | ⟨_, hx⟩
    · obtain ⟨st, hl, hn, ho⟩ := h _ _ hi
      rw [hr] at hn ho
      obtain ⟨st', rfl, hn', ho'⟩ := rel hn ho
      exact ⟨st', by rw [← hl]; simp [locksOf], hn', ho'⟩
    · exact h _ _ hx
  | @relBad i th g r hi hr hm =>
    exfalso
    obtain ⟨st, hl, hn, ho⟩ := h _ _ hi
    rw [hr] at hn ho
    obtain ⟨st', rfl, _, _⟩ := rel hn ho
    apply hm; rw [← hl]; simp [locksOf]

theorem below_held {b : Nat} : ∀ {st : List Open}, below b st → ∀ g ∈ locksOf st, g.l < b
  | [], _, g, hg => by cases hg
  | .lk h :: st, hb, g, hg => by
    rcases List.mem_cons.1 hg with rfl | hg
    · exact hb.1
    · exact below_held hb.2 g hg
  | .cl _ :: st, hb, g, hg => below_held (st := st) hb g hg

/-- a list of threads that all wait has one that waits for the greatest lock -/
theorem exists_max {α : Type} (f : α → Nat) : ∀ (l : List α), l ≠ [] → ∃ a ∈ l, ∀ b ∈ l, f b ≤ f a
  | [], h => absurd rfl h
  | [a], _ => ⟨a, by simp, by simp⟩
  | a :: b :: t, _ => by
    obtain ⟨m, hm, hx⟩ := exists_max f (b :: t) (by simp)
    by_cases h : f m ≤ f a
    · refine ⟨a, by simp, fun c hc => ?_⟩
      rcases List.mem_cons.1 hc with rfl | hc
      · exact Nat.le_refl _
      · exact Nat.le_trans (hx c hc) h
    · refine ⟨m, List.mem_cons_of_mem _ hm, fun c hc => ?_⟩
      rcases List.mem_cons.1 hc with rfl | hc
      · omega
      · exact hx c hc

/-- the lock a thread asks for next -/
def want (th : Th) : Nat := match th.rest with | .acq h :: _ => h.l | _ => 0

/-- **C90: no deadlock if all programs take their locks in ascending order:** as long as a thread is not through, some thread can go on. -/
theorem C90_progress {ps : List Prog} {s t : St} (hp : ∀ p ∈ ps, p.noCopies) (ho : ∀ p ∈ ps, p.ordered 0) (h : Starts ps s) (r : Steps s t) (hd : ¬ Done t) : ∃ u, Step t u := by
  have O : ∀ (i : Nat) th, t.ths[i]? = some th → ThOrd th := by
    have O0 : ∀ (i : Nat) th, s.ths[i]? = some th → ThOrd th := by
      intro i th hi
      obtain ⟨p, n, e, hh, rr⟩ := h.2.2 i th hi
      have hm := List.mem_of_getElem? e
      exact ⟨[], hh.symm, C90_nested (hp p hm) rr [], ord_run rr (hp p hm) (ho p hm) trivial⟩
    clear hd
    induction r with
    | refl => exact O0
    | tail _ hs ih => exact ord_step ih hs
  apply Classical.byContradiction
  intro hno
  -- every thread that is not through waits for a lock another thread holds
  have hw : ∀ th ∈ t.ths, th.rest ≠ [] → ∃ g r, th.rest = .acq g :: r ∧ ∃ th' ∈ t.ths, ∃ k ∈ th'.held, k.l = g.l := by
    intro th hth hne
    obtain ⟨i, hi⟩ := List.getElem?_of_mem hth
    cases hr : th.rest with
    | nil => exact absurd hr hne
    | cons e r =>
      cases e with
      | act n => exact absurd ⟨_, Step.plain t hi hr (by simp) (by simp)⟩ hno
      | make n => exact absurd ⟨_, Step.plain t hi hr (by simp) (by simp)⟩ hno
      | clean n => exact absurd ⟨_, Step.plain t hi hr (by simp) (by simp)⟩ hno
      | rel g =>
        by_cases hm : g ∈ th.held
        · exact absurd ⟨_, Step.rel t hi hr hm⟩ hno
        · exact absurd ⟨_, Step.relBad t hi hr hm⟩ hno
      | acq g =>
        refine ⟨g, r, rfl, Classical.byContradiction fun hf => hno ⟨_, Step.acq t hi hr ?_⟩⟩
        intro th' h1 k h2 e
        exact absurd ⟨th', h1, k, h2, e⟩ hf
  have hex : ∃ th ∈ t.ths, th.rest ≠ [] := Classical.byContradiction fun hf => hd fun th hth => Classical.byContradiction fun hn => hf ⟨th, hth, hn⟩
  obtain ⟨th0, m0, n0⟩ := hex
  obtain ⟨a, ha, hmax⟩ := exists_max want (t.ths.filter fun th => !th.rest.isEmpty) (List.ne_nil_of_mem (a := th0) (by rw [List.mem_filter]; exact ⟨m0, by cases hr : th0.rest <;> simp_all⟩))
  rw [List.mem_filter] at ha
  obtain ⟨g, r1, e1, b, hb, k, hk, hkl⟩ := hw a ha.1 (by intro e; rw [e] at ha; simp at ha)
  -- the holder is not through
  obtain ⟨j, hj⟩ := List.getElem?_of_mem hb
  obtain ⟨st, hl, hn, hor⟩ := O j b hj
  have bne : b.rest ≠ [] := by
    intro e; rw [e] at hn
    simp only [nest, Option.some.injEq] at hn
    subst hn; rw [← hl] at hk; cases hk
  obtain ⟨g2, r2, e2, _⟩ := hw b hb bne
  rw [e2] at hor
  simp only [OrdFrom] at hor
  have h1 := below_held hor.1 k (by rw [hl]; exact hk)
  have h2 := hmax b (by rw [List.mem_filter]; exact ⟨hb, by rw [e2]; rfl⟩)
  simp only [want, e1, e2] at h2
  omega

/-- **C90 is false without the order: a lock that is taken again by its holder** (`SRWLock` is not re-entrant, and a shared hold cannot be upgraded) stops the thread for ever, whatever the others do: as long as it holds
the lock, the request is never granted. -/
theorem C90_again_fails {s t : St} {i : Nat} {th : Th} {g h : Hold} {r : List Ev} (hi : s.ths[i]? = some th) (hr : th.rest = .acq h :: r) (hg : g ∈ th.held) (hl : g.l = h.l) (hx : g.x = true ∨ h.x = true)
    (rr : Steps s t) : t.ths[i]? = some th := by
  induction rr with
  | refl => exact hi
  | @tail t u _ hs ih =>
    have stay : ∀ {j : Nat} {th' : Th}, j ≠ i → (t.ths.set j th')[i]? = some th := fun hn => by rw [List.getElem?_set_ne hn]; exact ih
    cases hs with
    | @plain j th1 e r1 hj hr1 n1 n2 =>
      refine stay fun e' => ?_
      subst e'; rw [ih] at hj; cases hj; rw [hr] at hr1; cases hr1; exact n1 h rfl
    | @acq j th1 h1 r1 hj hr1 hf =>
      refine stay fun e' => ?_
      subst e'; rw [ih] at hj; cases hj; rw [hr] at hr1; cases hr1
      have := hf th (List.mem_of_getElem? ih) g hg hl
      rcases hx with hx | hx
      · rw [this.1] at hx; cases hx
      · rw [this.2] at hx; cases hx
    | @rel j th1 h1 r1 hj hr1 hm =>
      refine stay fun e' => ?_
      subst e'; rw [ih] at hj; cases hj; rw [hr] at hr1; cases hr1
    | @relBad j th1 h1 r1 hj hr1 hm =>
      refine stay fun e' => ?_
      subst e'; rw [ih] at hj; cases hj; rw [hr] at hr1; cases hr1

/-! ### a concrete case -/

/-- `{ AutoLock a(l1); { AutoCleanup c; if (…) return; AutoSharedLock b(l2); act } }` -/
def demo : Prog := .lock ⟨1, true⟩ (.clean 7 0 (.seq (.choice .exit (.act 1)) (.lock ⟨2, false⟩ (.act 2))))

/-- two threads run it; one returns early, the other waits, then both finish; the hypotheses of the theorems are met -/
theorem C90_example : demo.noCopies ∧ demo.ordered 0 ∧
    Runs demo [.acq ⟨1, true⟩, .make 7, .clean 7, .rel ⟨1, true⟩] false ∧
    Runs demo [.acq ⟨1, true⟩, .make 7, .act 1, .acq ⟨2, false⟩, .act 2, .rel ⟨2, false⟩, .clean 7, .rel ⟨1, true⟩] true ∧
    (∃ s t, Starts [demo, demo] s ∧ Steps s t ∧ ¬ Done t ∧ (∃ a, t.ths[0]? = some a ∧ a.held = [⟨1, true⟩]) ∧ ∀ u, Step t u → ∃ b, u.ths[1]? = some b ∧ b.held = []) ∧
    Runs (.clean 7 1 (.act 0)) [.make 7, .act 0, .clean 7, .clean 7] true := by
  have r1 : Runs demo [.acq ⟨1, true⟩, .make 7, .clean 7, .rel ⟨1, true⟩] false :=
    .lock (.clean (c := 0) (t := []) (.seqExit (.left .exit)))
  have r2 : Runs demo [.acq ⟨1, true⟩, .make 7, .act 1, .acq ⟨2, false⟩, .act 2, .rel ⟨2, false⟩, .clean 7, .rel ⟨1, true⟩] true :=
    .lock (.clean (c := 0) (t := [.act 1, .acq ⟨2, false⟩, .act 2, .rel ⟨2, false⟩]) (.seq (t := [.act 1]) (.right (.act 1)) (.lock (t := [.act 2]) (.act 2))))
  refine ⟨by simp [demo, Prog.noCopies], by simp [demo, Prog.ordered], r1, r2, ?_, .clean (c := 1) (t := [.act 0]) (.act 0)⟩
  refine ⟨⟨[⟨[], [.acq ⟨1, true⟩, .make 7, .clean 7, .rel ⟨1, true⟩]⟩, ⟨[], [.acq ⟨1, true⟩, .make 7, .act 1, .acq ⟨2, false⟩, .act 2, .rel ⟨2, false⟩, .clean 7, .rel ⟨1, true⟩]⟩], false⟩,
    ⟨[⟨[⟨1, true⟩], [.make 7, .clean 7, .rel ⟨1, true⟩]⟩, ⟨[], [.acq ⟨1, true⟩, .make 7, .act 1, .acq ⟨2, false⟩, .act 2, .rel ⟨2, false⟩, .clean 7, .rel ⟨1, true⟩]⟩], false⟩, ⟨rfl, rfl, ?_⟩, ?_, ?_, ⟨_, rfl, rfl⟩, ?_⟩
  · intro i th hi
    match i, hi with
    | 0, hi => cases hi; exact ⟨demo, false, rfl, rfl, r1⟩
    | 1, hi => cases hi; exact ⟨demo, true, rfl, rfl, r2⟩
  · refine .tail (.refl _) (Step.acq ⟨[⟨[], [.acq ⟨1, true⟩, .make 7, .clean 7, .rel ⟨1, true⟩]⟩, ⟨[], [.acq ⟨1, true⟩, .make 7, .act 1, .acq ⟨2, false⟩, .act 2, .rel ⟨2, false⟩, .clean 7, .rel ⟨1, true⟩]⟩], false⟩
      (i := 0) (th := ⟨[], [.acq ⟨1, true⟩, .make 7, .clean 7, .rel ⟨1, true⟩]⟩) (h := ⟨1, true⟩) (r := [.make 7, .clean 7, .rel ⟨1, true⟩]) rfl rfl ?_)
    intro th hth g hg
    simp only [List.mem_cons, List.not_mem_nil, or_false] at hth
    rcases hth with rfl | rfl <;> cases hg
  · intro hd
    have := hd _ (List.mem_cons_self ..)
    cases this
  · intro u hu
    cases hu with
    | @plain i th e r hi hr n1 n2 =>
      match i, hi with
      | 0, hi => cases hi; exact ⟨_, rfl, rfl⟩
      | 1, hi => cases hi; cases hr; exact absurd rfl (n1 _)
    | @acq i th h r hi hr hf =>
      match i, hi with
      | 0, hi => cases hi; cases hr
      | 1, hi =>
        cases hi; cases hr
        have := hf _ (List.mem_cons_self ..) ⟨1, true⟩ (List.mem_cons_self ..) rfl
        cases this.1
    | @rel i th h r hi hr hm =>
      match i, hi with
      | 0, hi => cases hi; cases hr
      | 1, hi => cases hi; cases hr
    | @relBad i th h r hi hr hm =>
      match i, hi with
      | 0, hi => cases hi; cases hr
      | 1, hi => cases hi; cases hr

end Verif.Guard
