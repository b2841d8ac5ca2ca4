import Verif.Current.Lemmas
/-!
# C94: the current runner of a thread
-/
namespace Verif.Current

/-- a destroyed runner stays destroyed -/
theorem alive_back {s s' : St} {pool : Nat → Bool} (hs : Step pool s s') {r : Nat} (hr : r < s.made) (ha : Alive s' r) : Alive s r := by
  have hn : r ≠ s.made := Nat.ne_of_lt hr
  have stk : ∀ {t : Nat} {l : List Frame} {st : St}, st.stk = upd s.stk t l → (∀ f, f ∈ l → f.holds r → Alive s r) →
      (∃ u f, f ∈ st.stk u ∧ f.holds r) → Alive s r := by
    rintro t l st e hl ⟨u, f, hm, hf⟩
    rw [e] at hm
    by_cases eu : u = t
    · subst eu
      simp only [upd_same] at hm
      exact hl f hm hf
    · rw [upd_other _ _ _ _ eu] at hm
      exact .inr (.inr ⟨u, f, hm, hf⟩)
  have sub : ∀ {t : Nat} {l m : List Frame}, s.stk t = m → (∀ f, f ∈ l → f ∈ m ∨ ¬ f.holds r) → ∀ f, f ∈ l → f.holds r → Alive s r := by
    rintro t l m e hl f hm hf
    rcases hl f hm with hm' | hn
    · exact .inr (.inr ⟨t, f, e ▸ hm', hf⟩)
    · exact absurd hf hn
  have new : ∀ {k : Kind} {a b : Nat}, Alive (s.new k a b) r → Alive s r := by
    rintro k a b (ho | hw | hx)
    · simp only [St.new, upd_other _ _ _ _ hn] at ho
      exact .inl ho
    · simp only [St.new, upd_other _ _ _ _ hn] at hw
      exact .inr (.inl hw)
    · exact .inr (.inr hx)
  cases hs with
  | create k hk => exact new ha
  | createThread => exact new ha
  | createFailed => exact new ha
  | bind t k hu hg hk => exact new (k := k) (a := 1) (b := 0) ha
  | copy x ho =>
    rcases ha with h | h
    · by_cases e : r = x
      · subst e; exact .inl ho
      · simp only [upd_other _ _ _ _ e] at h; exact .inl h
    · exact .inr h
  | keep t x hu hg =>
    rcases ha with h | h
    · by_cases e : r = x
      · subst e; exact (get_some hg).2
      · simp only [upd_other _ _ _ _ e] at h; exact .inl h
    · exact .inr h
  | drop x ho =>
    rcases ha with h | h
    · by_cases e : r = x
      · subst e; exact .inl ho
      · simp only [upd_other _ _ _ _ e] at h; exact .inl h
    · exact .inr h
  | submit x hx hk =>
    rcases ha with h | h | h
    · exact .inl h
    · by_cases e : r = x
      · subst e; exact hx
      · simp only [upd_other _ _ _ _ e] at h; exact .inr (.inl h)
    · exact .inr (.inr h)
  | exec t x hp hs hw hk =>
    rcases ha with h | h | h
    · exact .inl h
    · by_cases e : r = x
      · subst e; exact .inr (.inl hw)
      · simp only [upd_other _ _ _ _ e] at h; exact .inr (.inl h)
    · refine stk rfl (fun f hm hf => ?_) h
      simp at hm; subst hm
      simp only [Frame.holds] at hf; subst hf
      exact .inr (.inl hw)
  | main t x hp hs hw hk =>
    rcases ha with h | h | h
    · exact .inl h
    · by_cases e : r = x
      · subst e; exact .inr (.inl hw)
      · simp only [upd_other _ _ _ _ e] at h; exact .inr (.inl h)
    · refine stk rfl (fun f hm hf => ?_) h
      simp at hm; subst hm
      simp only [Frame.holds] at hf; subst hf
      exact .inr (.inl hw)
  | call t x f l e hf =>
    rcases ha with h | h | h
    · exact .inl h
    · exact .inr (.inl h)
    · refine stk rfl (sub e fun g hg => ?_) h
      rcases List.mem_cons.mp hg with e' | hg'
      · subst e'; exact .inr (fun h => h)
      · exact .inl hg'
  | ret t x l e =>
    rcases ha with h | h | h
    · exact .inl h
    · exact .inr (.inl h)
    · exact stk rfl (sub e fun g hg => .inl (List.mem_cons_of_mem _ hg)) h
  | leave t x l e =>
    rcases ha with h | h | h
    · exact .inl h
    · exact .inr (.inl h)
    · refine stk rfl (sub e fun g hg => ?_) h
      rcases List.mem_cons.mp hg with e' | hg'
      · subst e'; exact .inr (fun h => h)
      · exact .inl (List.mem_cons_of_mem _ hg')
  | dtor t x l e =>
    rcases ha with h | h | h
    · exact .inl h
    · exact .inr (.inl h)
    · refine stk rfl (sub e fun g hg => ?_) h
      rcases List.mem_cons.mp hg with e' | hg'
      · subst e'; exact .inr (fun h => h)
      · exact .inl hg'
  | dtorEnd t l e =>
    rcases ha with h | h | h
    · exact .inl h
    · exact .inr (.inl h)
    · exact stk rfl (sub e fun g hg => .inl (List.mem_cons_of_mem _ hg)) h
  | tidyEnd t x l e =>
    rcases ha with h | h | h
    · exact .inl h
    · exact .inr (.inl h)
    · exact stk rfl (sub e fun g hg => .inl (List.mem_cons_of_mem _ hg)) h
  | mainEnd t x l e =>
    rcases ha with h | h | h
    · exact .inl h
    · exact .inr (.inl h)
    · exact stk rfl (sub e fun g hg => .inl (List.mem_cons_of_mem _ hg)) h
  | loop t x hu hg hf =>
    rcases ha with h | h | h
    · exact .inl h
    · exact .inr (.inl h)
    · refine stk rfl (fun f hm hh => ?_) h
      rcases List.mem_cons.mp hm with e' | hm'
      · subst e'
        simp only [Frame.holds] at hh; subst hh
        exact (get_some hg).2
      · exact .inr (.inr ⟨t, f, hm', hh⟩)
  | loopEnd t x l e =>
    rcases ha with h | h | h
    · exact .inl h
    · exact .inr (.inl h)
    · exact stk rfl (sub e fun g hg => .inl (List.mem_cons_of_mem _ hg)) h
  | proc t x hu hg hk =>
    rcases ha with h | h | h
    · exact .inl h
    · exact .inr (.inl h)
    · refine stk rfl (fun f hm hh => ?_) h
      rcases List.mem_cons.mp hm with e' | hm'
      · subst e'
        simp only [Frame.holds] at hh; subst hh
        exact (get_some hg).2
      · exact .inr (.inr ⟨t, f, hm', hh⟩)
  | procEnd t x l e =>
    rcases ha with h | h | h
    · exact .inl h
    · exact .inr (.inl h)
    · exact stk rfl (sub e fun g hg => .inl (List.mem_cons_of_mem _ hg)) h

theorem made_mono {s s' : St} {pool : Nat → Bool} (hs : Step pool s s') : s.made ≤ s'.made := by
  cases hs <;> simp [St.new]

/-- the class of a made runner does not change -/
theorem kind_same {s s' : St} {pool : Nat → Bool} (hs : Step pool s s') {r : Nat} (hr : r < s.made) : s'.kind r = s.kind r := by
  have hn : r ≠ s.made := Nat.ne_of_lt hr
  cases hs <;> simp [St.new, upd_other _ _ _ _ hn]

/-- outside the pool a current runner is only replaced when it is destroyed -/
theorem cur_same {s s' : St} {pool : Nat → Bool} (h : Inv s) (hs : Step pool s s') {t r : Nat} (hp : pool t = false) (hc : s.cur t = some r) (ha : Alive s r)
    (hst : ∀ x l, s.stk t ≠ .exec x :: l) (hsm : ∀ x l, s.stk t ≠ .main x :: l) : s'.cur t = some r := by
  have other : ∀ {u : Nat} {c : Option Nat}, t ≠ u → upd s.cur u c t = some r := fun e => by rw [upd_other _ _ _ _ e]; exact hc
  cases hs with
  | bind u k hu hg hk =>
    refine other ?_
    rintro rfl
    rw [get_of hc ha] at hg
    cases hg
  | exec u x hp' _ _ _ =>
    refine other ?_
    rintro rfl
    rw [hp] at hp'
    cases hp'
  | main u x hp' _ _ _ =>
    refine other ?_
    rintro rfl
    rw [hp] at hp'
    cases hp'
  | leave u x l e =>
    refine other ?_
    rintro rfl
    exact absurd e (hst x l)
  | mainEnd u x l e =>
    refine other ?_
    rintro rfl
    exact absurd e (hsm x l)
  | _ => exact hc

/-- calls of the pool are at the bottom of stacks of pool threads -/
theorem pool_frames {s : St} {pool : Nat → Bool} (h : Reach pool s) : ∀ t f, f ∈ s.stk t → (∃ x, f = .exec x ∨ f = .main x ∨ f = .tidy x) → pool t = true := by
  induction h with
  | start => intro t f hm; simp at hm
  | @step s s' _ hs ih =>
    have keep : ∀ {u : Nat} {l : List Frame} {st : St}, st.stk = upd s.stk u l → (∀ f, f ∈ l → (∃ x, f = .exec x ∨ f = .main x ∨ f = .tidy x) → pool u = true) →
        ∀ t f, f ∈ st.stk t → (∃ x, f = .exec x ∨ f = .main x ∨ f = .tidy x) → pool t = true := by
      intro u l st e hl t f hm hx
      rw [e] at hm
      by_cases et : t = u
      · subst et
        simp only [upd_same] at hm
        exact hl f hm hx
      · rw [upd_other _ _ _ _ et] at hm
        exact ih t f hm hx
    cases hs with
    | create k hk => exact ih
    | createThread => exact ih
    | createFailed => exact ih
    | bind t k hu hg hk => exact ih
    | copy x ho => exact ih
    | keep t x hu hg => exact ih
    | drop x ho => exact ih
    | submit x hx hk => exact ih
    | exec t x hp hs hw hk => exact keep rfl fun f hm _ => hp
    | main t x hp hs hw hk => exact keep rfl fun f hm _ => hp
    | call t x f l e hf =>
      refine keep rfl fun g hm hg => ?_
      rcases List.mem_cons.mp hm with e' | hm'
      · subst e'; obtain ⟨y, hy | hy | hy⟩ := hg <;> cases hy
      · exact ih t g (e ▸ hm') hg
    | ret t x l e => exact keep rfl fun g hm hg => ih t g (by rw [e]; exact List.mem_cons_of_mem _ hm) hg
    | leave t x l e =>
      refine keep rfl fun g hm hg => ?_
      exact ih t (.exec x) (by rw [e]; simp) ⟨x, .inl rfl⟩
    | dtor t x l e =>
      refine keep rfl fun g hm hg => ?_
      exact ih t (.tidy x) (by rw [e]; simp) ⟨x, .inr (.inr rfl)⟩
    | dtorEnd t l e => exact keep rfl fun g hm hg => ih t g (by rw [e]; exact List.mem_cons_of_mem _ hm) hg
    | tidyEnd t x l e => exact keep rfl fun g hm hg => ih t g (by rw [e]; exact List.mem_cons_of_mem _ hm) hg
    | mainEnd t x l e => exact keep rfl fun g hm hg => ih t g (by rw [e]; exact List.mem_cons_of_mem _ hm) hg
    | loop t x hu hg hf =>
      refine keep rfl fun g hm hx => ?_
      rcases List.mem_cons.mp hm with e' | hm'
      · subst e'; obtain ⟨y, hy | hy | hy⟩ := hx <;> cases hy
      · exact ih t g hm' hx
    | loopEnd t x l e => exact keep rfl fun g hm hg => ih t g (by rw [e]; exact List.mem_cons_of_mem _ hm) hg
    | proc t x hu hg hk =>
      refine keep rfl fun g hm hx => ?_
      rcases List.mem_cons.mp hm with e' | hm'
      · subst e'; obtain ⟨y, hy | hy | hy⟩ := hx <;> cases hy
      · exact ih t g hm' hx
    | procEnd t x l e => exact keep rfl fun g hm hg => ih t g (by rw [e]; exact List.mem_cons_of_mem _ hm) hg

theorem Steps.reach {s s' : St} {pool : Nat → Bool} (h : Reach pool s) (hs : Steps pool s s') : Reach pool s' := by
  induction hs with
  | refl => exact h
  | step _ hs ih => exact .step ih hs

/-! ### The claims -/

/-- **C94**, in a task. In every execution, while user code called by runner `r` (a task, a timer, a callback, a message handler) runs on thread `t` – also while it is suspended by loops it started
itself – `TaskRunner::GetCurrent` on that thread is `r`. -/
theorem C94_current {pool : Nat → Bool} {s : St} (h : Reach pool s) {t r : Nat} (hm : .call r ∈ s.stk t) : get s t = some r := by
  obtain ⟨hc, f, hf, hh⟩ := ((Inv.reach h).fits t).mem_call hm
  exact get_of hc (.inr (.inr ⟨t, f, hf, hh⟩))

/-- the classes (TaskRunner.h 191, 436, 457, 523; the implementations) -/
inductive Class where
  | TaskRunner | SequencedTaskRunner | ThreadTaskRunner | ParallelTaskRunner | ThreadTaskRunnerBaseImpl
  | SequencedTaskRunnerImpl | ParallelTaskRunnerImpl | ThreadTaskRunnerImpl | ThreadTaskRunnerProxyImpl
deriving DecidableEq

/-- the `public` base class -/
def Class.base : Class → Option Class
  | .TaskRunner => none
  | .SequencedTaskRunner => some .TaskRunner
  | .ThreadTaskRunner => some .SequencedTaskRunner
  | .ParallelTaskRunner => some .TaskRunner
  | .ThreadTaskRunnerBaseImpl => some .ThreadTaskRunner
  | .SequencedTaskRunnerImpl => some .SequencedTaskRunner
  | .ParallelTaskRunnerImpl => some .ParallelTaskRunner
  | .ThreadTaskRunnerImpl => some .ThreadTaskRunnerBaseImpl
  | .ThreadTaskRunnerProxyImpl => some .ThreadTaskRunnerBaseImpl

inductive Derives : Class → Class → Prop
  | same (c : Class) : Derives c c
  | base {c d e : Class} : c.base = some d → Derives d e → Derives c e

/-- the class of the object -/
def Kind.cls : Kind → Class
  | .seq => .SequencedTaskRunnerImpl
  | .par => .ParallelTaskRunnerImpl
  | .thr => .ThreadTaskRunnerImpl
  | .proxy => .ThreadTaskRunnerProxyImpl

theorem derives_iff (c e : Class) : Derives c e ↔ c = e ∨ ∃ d, c.base = some d ∧ Derives d e := by
  constructor
  · intro h
    cases h with
    | same => exact .inl rfl
    | base hb hd => exact .inr ⟨_, hb, hd⟩
  · rintro (rfl | ⟨d, hb, hd⟩)
    · exact .same _
    · exact .base hb hd

theorem d_base (e : Class) : Derives .TaskRunner e ↔ Class.TaskRunner = e := by rw [derives_iff]; simp [Class.base]
theorem d_seq (e : Class) : Derives .SequencedTaskRunner e ↔ Class.SequencedTaskRunner = e ∨ Derives .TaskRunner e := by rw [derives_iff]; simp [Class.base]
theorem d_par (e : Class) : Derives .ParallelTaskRunner e ↔ Class.ParallelTaskRunner = e ∨ Derives .TaskRunner e := by rw [derives_iff]; simp [Class.base]
theorem d_thr (e : Class) : Derives .ThreadTaskRunner e ↔ Class.ThreadTaskRunner = e ∨ Derives .SequencedTaskRunner e := by rw [derives_iff]; simp [Class.base]
theorem d_thrBase (e : Class) : Derives .ThreadTaskRunnerBaseImpl e ↔ Class.ThreadTaskRunnerBaseImpl = e ∨ Derives .ThreadTaskRunner e := by rw [derives_iff]; simp [Class.base]
theorem d_seqImpl (e : Class) : Derives .SequencedTaskRunnerImpl e ↔ Class.SequencedTaskRunnerImpl = e ∨ Derives .SequencedTaskRunner e := by rw [derives_iff]; simp [Class.base]
theorem d_parImpl (e : Class) : Derives .ParallelTaskRunnerImpl e ↔ Class.ParallelTaskRunnerImpl = e ∨ Derives .ParallelTaskRunner e := by rw [derives_iff]; simp [Class.base]
theorem d_thrImpl (e : Class) : Derives .ThreadTaskRunnerImpl e ↔ Class.ThreadTaskRunnerImpl = e ∨ Derives .ThreadTaskRunnerBaseImpl e := by rw [derives_iff]; simp [Class.base]
theorem d_proxyImpl (e : Class) : Derives .ThreadTaskRunnerProxyImpl e ↔ Class.ThreadTaskRunnerProxyImpl = e ∨ Derives .ThreadTaskRunnerBaseImpl e := by rw [derives_iff]; simp [Class.base]

/-- **C94**, the typed functions. `SequencedTaskRunner::GetCurrent`, `ThreadTaskRunner::GetCurrent` and `ParallelTaskRunner::GetCurrent` return the current runner exactly when its object is of a class
derived from the class asked for (the unchecked casts at 272, 422, 501 are sound), otherwise null. -/
theorem C94_typed (s : St) (t r : Nat) :
    (seqCurrent s t = some r ↔ get s t = some r ∧ Derives (s.kind r).cls .SequencedTaskRunner) ∧
    (thrCurrent s t = some r ↔ get s t = some r ∧ Derives (s.kind r).cls .ThreadTaskRunner) ∧
    (parCurrent s t = some r ↔ get s t = some r ∧ Derives (s.kind r).cls .ParallelTaskRunner) := by
  unfold seqCurrent thrCurrent parCurrent
  cases hg : get s t with
  | none => simp
  | some x =>
    by_cases e : x = r
    · subst e
      refine ⟨?_, ?_, ?_⟩ <;> cases hk : s.kind x <;>
        simp [hk, style, hasFlags, fixedBit, sequencedBit, Kind.cls, d_base, d_seq, d_par, d_thr, d_thrBase, d_seqImpl, d_parImpl, d_thrImpl, d_proxyImpl]
    · refine ⟨?_, ?_, ?_⟩
      · simp only [Option.some.injEq, e, false_and, iff_false]
        split <;> simp [e]
      · simp only [Option.some.injEq, e, false_and, iff_false]
        split <;> simp [e]
      · simp only [Option.some.injEq, e, false_and, iff_false]
        split <;> simp [e]

/-- **C94**, message loops. `RunUIMessageLoop` only ever runs the loop of a `ThreadTaskRunnerBaseImpl` (the cast at 467 is sound), and only on the thread whose current runner it is. -/
theorem C94_loop {pool : Nat → Bool} {s : St} (h : Reach pool s) {t r : Nat} (hm : .loop r ∈ s.stk t) :
    Derives (s.kind r).cls .ThreadTaskRunnerBaseImpl ∧ get s t = some r := by
  have hi := Inv.reach h
  refine ⟨?_, get_of ((hi.fits t).mem_holds hm rfl) (.inr (.inr ⟨t, _, hm, rfl⟩))⟩
  rcases hi.loops t r hm with e | e <;> rw [e] <;> simp [Kind.cls, d_base, d_seq, d_par, d_thr, d_thrBase, d_seqImpl, d_parImpl, d_thrImpl, d_proxyImpl]

/-- **C94**, bindings last. Outside the thread pool a thread that has a current runner keeps it as long as the runner exists: no other runner can be bound to the thread (`BindCurrentThread` and
`BindCurrentThreadForProxyMode` return null), whatever loops and tasks run on it. -/
theorem C94_bound {pool : Nat → Bool} {s s' : St} (h : Reach pool s) {t r : Nat} (hp : pool t = false) (hg : get s t = some r) (hs : Steps pool s s') (ha : Alive s' r) :
    get s' t = some r := by
  have hr : r < s.made := (Inv.reach h).known t r (get_some hg).1
  have key : r < s'.made ∧ (Alive s' r → s'.cur t = some r) := by
    clear ha
    induction hs with
    | refl => exact ⟨hr, fun _ => (get_some hg).1⟩
    | @step s' s'' hsteps hstep ih =>
      have hre := Steps.reach h hsteps
      refine ⟨Nat.lt_of_lt_of_le ih.1 (made_mono hstep), fun ha => ?_⟩
      have ha' := alive_back hstep ih.1 ha
      refine cur_same (Inv.reach hre) hstep hp (ih.2 ha') ha' ?_ ?_
      · intro x l e
        have := pool_frames hre t (.exec x) (by rw [e]; simp) ⟨x, .inl rfl⟩
        rw [hp] at this; cases this
      · intro x l e
        have := pool_frames hre t (.main x) (by rw [e]; simp) ⟨x, .inr (.inl rfl)⟩
        rw [hp] at this; cases this
  exact get_of (key.2 ha) ha

/-- runner `r` can only be current on thread `t`, now and later -/
def Home (s : St) (r t : Nat) : Prop := r < s.made ∧ Fixed (s.kind r) ∧ s.work r = 0 ∧ ∀ u, s.cur u = some r → u = t

theorem home_step {s s' : St} {pool : Nat → Bool} {r t : Nat} (h : Home s r t) (hs : Step pool s s') : Home s' r t := by
  obtain ⟨hr, hf, hw, hc⟩ := h
  have hn : r ≠ s.made := Nat.ne_of_lt hr
  refine ⟨Nat.lt_of_lt_of_le hr (made_mono hs), by rw [kind_same hs hr]; exact hf, ?_, ?_⟩
  · cases hs with
    | submit x hx hk =>
      have : r ≠ x := by
        rintro rfl
        rcases hk with hk | hk <;> rw [hk] at hf <;> rcases hf with hf | hf <;> cases hf
      simpa [upd_other _ _ _ _ this] using hw
    | exec u x hp hs hw' hk =>
      have : r ≠ x := by rintro rfl; omega
      simpa [upd_other _ _ _ _ this] using hw
    | main u x hp hs hw' hk =>
      have : r ≠ x := by rintro rfl; omega
      simpa [upd_other _ _ _ _ this] using hw
    | create k hk => simpa [St.new, upd_other _ _ _ _ hn] using hw
    | createThread => simpa [St.new, upd_other _ _ _ _ hn] using hw
    | createFailed => simpa [St.new, upd_other _ _ _ _ hn] using hw
    | bind u k hu hg hk => simpa [St.new, upd_other _ _ _ _ hn] using hw
    | _ => exact hw
  · intro v e
    have other : ∀ {u : Nat} {c : Option Nat}, c ≠ some r → upd s.cur u c v = some r → v = t := fun {u c} hc' e => by
      by_cases ev : v = u
      · subst ev
        simp at e
        exact absurd e hc'
      · rw [upd_other _ _ _ _ ev] at e
        exact hc v e
    cases hs with
    | bind u k hu hg hk => exact other (by simpa using fun h : s.made = r => hn h.symm) e
    | exec u x hp hs hw' hk => exact other (by rintro h; cases h; omega) e
    | main u x hp hs hw' hk => exact other (by rintro h; cases h; omega) e
    | leave u x l he => exact other (by simp) e
    | mainEnd u x l he => exact other (by simp) e
    | _ => exact hc v e

/-- **C94**, fixed threads. A runner with the style `FixedThread` calls user code on one thread only: whatever happens between two of its calls, they are on the same thread. -/
theorem C94_fixed {pool : Nat → Bool} {s s' : St} (h : Reach pool s) (hs : Steps pool s s') {t t' r : Nat} (hf : hasFlags (style (s.kind r)) fixedBit = true)
    (hm : .call r ∈ s.stk t) (hm' : .call r ∈ s'.stk t') : t' = t := by
  have hi := Inv.reach h
  have hk := (fixed_iff _).mp hf
  obtain ⟨hc, _⟩ := (hi.fits t).mem_call hm
  have h0 : Home s r t := ⟨hi.known t r hc, hk, hi.item t r hk hc, fun u e => hi.one u t r hk e hc⟩
  have h1 : Home s' r t := by
    clear hm'
    induction hs with
    | refl => exact h0
    | step _ hstep ih => exact home_step ih hstep
  exact h1.2.2.2 t' (((Inv.reach (Steps.reach h hs)).fits t').mem_call hm').1

/-! ### Examples -/

/-- threads 10, 11, … are the pool's -/
def demoPool (t : Nat) : Bool := decide (10 ≤ t)

/-- Thread 0 binds itself, runs its loop, a task in it starts a nested loop which calls a second task; meanwhile a parallel runner calls tasks on two threads of the pool. -/
theorem C94_example : ∃ s, Reach demoPool s ∧ s.stk 0 = [.call 0, .loop 0, .call 0, .loop 0] ∧ s.stk 10 = [.call 1, .exec 1] ∧ s.stk 11 = [.call 1, .exec 1] ∧
    s.kind 0 = .thr ∧ s.kind 1 = .par ∧ s.own 1 = 0 := by
  have h0 : Reach demoPool {} := .start
  have h1 := Reach.step h0 (.bind _ 0 .thr rfl rfl (.inl rfl))
  have g : ∀ s : St, s.cur 0 = some 0 → 0 < s.own 0 → get s 0 = some 0 := fun s e ho => get_of e (.inl ho)
  have h2 := Reach.step h1 (.loop _ 0 0 rfl (g _ rfl (by decide)) rfl)
  have h3 := Reach.step h2 (.call _ 0 0 (.loop 0) [] rfl rfl)
  have h4 := Reach.step h3 (.loop _ 0 0 trivial (g _ rfl (by decide)) rfl)
  have h5 := Reach.step h4 (.call _ 0 0 (.loop 0) [.call 0, .loop 0] rfl rfl)
  have h6 := Reach.step h5 (.create _ .par (.inr rfl))
  have h7 := Reach.step h6 (.submit _ 1 (.inl (by decide)) (.inr rfl))
  have h8 := Reach.step h7 (.submit _ 1 (.inl (by decide)) (.inr rfl))
  have h9 := Reach.step h8 (.exec _ 10 1 rfl rfl (by decide) (.inr rfl))
  have h10 := Reach.step h9 (.exec _ 11 1 rfl rfl (by decide) (.inr rfl))
  have h11 := Reach.step h10 (.call _ 10 1 (.exec 1) [] rfl rfl)
  have h12 := Reach.step h11 (.call _ 11 1 (.exec 1) [] rfl rfl)
  have h13 := Reach.step h12 (.drop _ 1 (by decide))
  exact ⟨_, h13, rfl, rfl, rfl, rfl, rfl, rfl⟩

/-- its tasks see their runners: the nested ones of thread 0 the thread runner, those of the pool the parallel runner, although no user owns it any more -/
theorem C94_example_current : ∃ s, Reach demoPool s ∧ get s 0 = some 0 ∧ seqCurrent s 0 = some 0 ∧ parCurrent s 0 = none ∧ get s 11 = some 1 ∧ parCurrent s 11 = some 1 ∧ seqCurrent s 11 = none := by
  obtain ⟨s, h, e0, e1, e2, k0, k1, _⟩ := C94_example
  have g0 := C94_current h (t := 0) (r := 0) (by rw [e0]; simp)
  have g1 := C94_current h (t := 11) (r := 1) (by rw [e2]; simp)
  refine ⟨s, h, g0, ?_, ?_, g1, ?_, ?_⟩
  · simp [seqCurrent, g0, k0, style, hasFlags, fixedBit, sequencedBit]
  · simp [parCurrent, g0, k0, style, fixedBit, sequencedBit]
  · simp [parCurrent, g1, k1, style]
  · simp [seqCurrent, g1, k1, style, hasFlags]

/-- On a thread of the pool a binding made by a destructor during a clean-up does not last: the next executor on the thread overwrites it and clears it when it leaves. The premise `pool t = false` of
`C94_bound` is needed. -/
theorem C94_pool_case : ∃ s s', Reach demoPool s ∧ Steps demoPool s s' ∧ get s 10 = some 1 ∧ Alive s' 1 ∧ get s' 10 = none := by
  have a : ∃ s, Reach demoPool s ∧ get s 10 = some 1 ∧ s.stk 10 = [] ∧ s.own 0 = 1 ∧ s.own 1 = 1 ∧ s.kind 0 = .seq := by
    have h0 : Reach demoPool {} := .start
    have h1 := Reach.step h0 (.create _ .seq (.inl rfl))
    have h2 := Reach.step h1 (.submit _ 0 (.inl (by decide)) (.inl rfl))
    have h3 := Reach.step h2 (.exec _ 10 0 rfl rfl (by decide) (.inl rfl))
    have h4 := Reach.step h3 (.leave _ 10 0 [] rfl)
    have h5 := Reach.step h4 (.dtor _ 10 0 [] rfl)
    have h6 := Reach.step h5 (.bind _ 10 .thr trivial rfl (.inl rfl))
    have h7 := Reach.step h6 (.dtorEnd _ 10 [.tidy 0] rfl)
    have h8 := Reach.step h7 (.tidyEnd _ 10 0 [] rfl)
    exact ⟨_, h8, get_of rfl (.inl (by decide)), rfl, rfl, rfl, rfl⟩
  obtain ⟨s, h, hg, hs, o0, o1, k0⟩ := a
  have s1 := Steps.step (.refl (pool := demoPool) s) (.submit s 0 (.inl (by rw [o0]; decide)) (.inl k0))
  have s2 := Steps.step s1 (.exec _ 10 0 rfl hs (by simp) (.inl k0))
  have s3 := Steps.step s2 (.leave _ 10 0 [] (by simp))
  exact ⟨s, _, h, s3, hg, .inl (by simp [o1]), by simp [get]⟩

end Verif.Current
