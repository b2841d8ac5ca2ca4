import Verif.CriticalSection.Model
/-!
# C31 – CriticalSection as a re-entrant lock

Claim: a thread holds the section while it has made more acquisitions than releases (`c t > 0`); two threads never hold it at once;
when no thread holds it, any thread can acquire it.  All parts of the claim fail for the code as it is:

* `C31_mutex_fails`: two threads hold the section at once;
* `C31_release_fails`: after one `Lock` and one `Unlock` nobody else can get it – in fact (`C31_never_released`)
  after *any* well-formed history without re-entrance;
* `C31_mutex_partial`: mutual exclusion does hold for histories without re-entrance.
-/
namespace Verif.CriticalSection

/-- What callers promise: thread ids are non-zero and `Unlock` is only called by a thread that holds the section.
`NoReentry` additionally: a thread does not acquire while it holds the section. -/
def Disciplined (s : State) (c : Nat → Nat) : List Op → Prop
  | [] => True
  | op :: ops =>
    match op with
    | .lock t => t ≠ 0 ∧ ∀ s', lock s t = some s' → Disciplined s' (fun u => if u = t then c t + 1 else c u) ops
    | .tryLock t => t ≠ 0 ∧
        Disciplined (tryLock s t).1 (fun u => if u = t ∧ (tryLock s t).2 then c t + 1 else c u) ops
    | .unlock t => t ≠ 0 ∧ 0 < c t ∧ Disciplined (unlock s) (fun u => if u = t then c t - 1 else c u) ops

def NoReentry (s : State) (c : Nat → Nat) : List Op → Prop
  | [] => True
  | op :: ops =>
    match op with
    | .lock t => c t = 0 ∧ ∀ s', lock s t = some s' → NoReentry s' (fun u => if u = t then c t + 1 else c u) ops
    | .tryLock t => c t = 0 ∧
        NoReentry (tryLock s t).1 (fun u => if u = t ∧ (tryLock s t).2 then c t + 1 else c u) ops
    | .unlock t => NoReentry (unlock s) (fun u => if u = t then c t - 1 else c u) ops

/-- Invariant without re-entrance: either nobody ever acquired, or thread `o` owns the SRW lock for ever. -/
def Inv (s : State) (c : Nat → Nat) : Prop :=
  (s = {} ∧ ∀ t, c t = 0) ∨
  (s.held = true ∧ s.owner ≠ 0 ∧ (∀ t, t ≠ s.owner → c t = 0) ∧
    ((c s.owner = 1 ∧ s.ref = 0) ∨ (c s.owner = 0 ∧ s.ref = -1)))

theorem inv_acquire {s c t s'} (h : Inv s c) (ht : t ≠ 0) (hc : c t = 0) (hl : lock s t = some s') :
    Inv s' (fun u => if u = t then c t + 1 else c u) ∧ s'.owner = t ∧ s'.held = true ∧ (s.held = true → s.owner = t) := by
  rcases h with ⟨rfl, h0⟩ | ⟨h1, h2, h3, h4⟩
  · simp only [lock, if_neg (Ne.symm ht)] at hl
    simp at hl; subst hl
    refine ⟨.inr ⟨rfl, ht, ?_, .inl ⟨?_, rfl⟩⟩, rfl, rfl, by simp⟩
    · intro u hu; simp only [] at hu; simp [hu, h0]
    · simp [h0]
  · by_cases ho : s.owner = t
    · simp only [lock, ho, if_true, Option.some.injEq] at hl
      subst hl
      rw [ho] at h4 h3
      rcases h4 with ⟨h4, _⟩ | ⟨_, h5⟩
      · omega
      · refine ⟨.inr ⟨h1, by simpa [ho] using ht, ?_, .inl ⟨?_, ?_⟩⟩, by simp, h1, fun _ => ho⟩
        · intro u hu; simp only [ho] at hu; simp [hu, h3 u hu]
        · simp [ho, hc]
        · simp only [h5]; decide
    · simp [lock, ho, h1] at hl

theorem tryLock_eq (s t) : tryLock s t = match lock s t with | some s' => (s', true) | none => (s, false) := by
  simp only [tryLock, lock]; split
  · rfl
  · split <;> rfl

theorem inv_unlock {s c t} (h : Inv s c) (hc : 0 < c t) :
    Inv (unlock s) (fun u => if u = t then c t - 1 else c u) ∧ (unlock s).owner = s.owner ∧ (unlock s).held = true ∧ s.owner = t := by
  rcases h with ⟨rfl, h0⟩ | ⟨h1, h2, h3, h4⟩
  · have := h0 t; omega
  · have ho : t = s.owner := by
      refine Classical.byContradiction fun hne => ?_
      have := h3 t hne; omega
    subst ho
    rcases h4 with ⟨h4, h5⟩ | ⟨h4, _⟩
    · have hu : unlock s = { s with ref := -1 } := by
        simp only [unlock, h5]; rfl
      rw [hu]
      refine ⟨.inr ⟨h1, h2, ?_, .inr ⟨?_, rfl⟩⟩, rfl, h1, rfl⟩
      · intro u hne; simp only [] at hne; simp [hne, h3 u hne]
      · simp [h4]
    · omega

/-- Invariant along a history, and who owns it at the end. -/
theorem run_inv {s c} (h : Inv s c) (ops : List Op) (hd : Disciplined s c ops) (hn : NoReentry s c ops)
    {s' c'} (hr : run s c ops = some (s', c')) :
    Inv s' c' ∧ (s.held = true → s'.owner = s.owner ∧ s'.held = true) := by
  induction ops generalizing s c with
  | nil => simp only [run, Option.some.injEq, Prod.mk.injEq] at hr; obtain ⟨rfl, rfl⟩ := hr; exact ⟨h, fun h => ⟨rfl, h⟩⟩
  | cons op ops ih =>
    cases op with
    | lock t =>
      simp only [run, step] at hr
      cases hl : lock s t with
      | none => simp [hl] at hr
      | some s1 =>
        simp only [hl, Option.map_some] at hr
        obtain ⟨i1, i2, i3, i4⟩ := inv_acquire h hd.1 hn.1 hl
        obtain ⟨j1, j2⟩ := ih i1 (hd.2 s1 hl) (hn.2 s1 hl) hr
        exact ⟨j1, fun hh => by rw [i4 hh]; exact i2 ▸ j2 i3⟩
    | tryLock t =>
      simp only [run, step] at hr
      simp only [Disciplined, NoReentry] at hd hn
      rw [tryLock_eq] at hr hd hn
      cases hl : lock s t with
      | none =>
        simp only [hl, Bool.false_eq_true, and_false, if_false] at hr hd hn
        exact ih h hd.2 hn.2 hr
      | some s1 =>
        simp only [hl, and_true] at hr hd hn
        obtain ⟨i1, i2, i3, i4⟩ := inv_acquire h hd.1 hn.1 hl
        obtain ⟨j1, j2⟩ := ih i1 hd.2 hn.2 hr
        exact ⟨j1, fun hh => by rw [i4 hh]; exact i2 ▸ j2 i3⟩
    | unlock t =>
      simp only [run, step] at hr
      obtain ⟨i1, i2, i3, i4⟩ := inv_unlock h hd.2.1
      obtain ⟨j1, j2⟩ := ih i1 hd.2.2 hn hr
      exact ⟨j1, fun _ => by rw [← i2]; exact j2 i3⟩

theorem inv_init : Inv {} (fun _ => 0) := .inl ⟨rfl, fun _ => rfl⟩

/-- **C31 (partial): mutual exclusion without re-entrance.** In every history of completed calls by any number of threads in which no
thread acquires while holding, at most one thread holds the section. -/
theorem C31_mutex_partial (ops : List Op) (hd : Disciplined {} (fun _ => 0) ops) (hn : NoReentry {} (fun _ => 0) ops)
    {s c} (hr : run {} (fun _ => 0) ops = some (s, c)) (t u : Nat) (ht : 0 < c t) (hu : 0 < c u) : t = u := by
  obtain ⟨hi, _⟩ := run_inv inv_init ops hd hn hr
  rcases hi with ⟨_, h0⟩ | ⟨_, _, h3, _⟩
  · have := h0 t; omega
  · have h1 : t = s.owner := Classical.byContradiction fun h => by have := h3 t h; omega
    have h2 : u = s.owner := Classical.byContradiction fun h => by have := h3 u h; omega
    rw [h1, h2]

/-- **C31 fails: the section is never released.** In every well-formed history without re-entrance that starts with an acquisition by
thread `t`, no other thread can ever acquire the section again – even when all acquisitions have been matched by releases. -/
theorem C31_never_released (t : Nat) (ops : List Op)
    (hd : Disciplined {} (fun _ => 0) (.lock t :: ops)) (hn : NoReentry {} (fun _ => 0) (.lock t :: ops))
    {s c} (hr : run {} (fun _ => 0) (.lock t :: ops) = some (s, c)) (u : Nat) (hu : u ≠ t) (hu0 : u ≠ 0) :
    lock s u = none ∧ (tryLock s u).2 = false := by
  simp only [run, step] at hr
  cases hl : lock {} t with
  | none => rw [hl] at hr; simp at hr
  | some s1 =>
    simp only [hl, Option.map_some] at hr
    obtain ⟨i1, i2, i3, _⟩ := inv_acquire inv_init hd.1 hn.1 hl
    obtain ⟨_, j2⟩ := run_inv i1 ops (hd.2 s1 hl) (hn.2 s1 hl) hr
    obtain ⟨k1, k2⟩ := j2 i3
    have : s.owner ≠ u := by rw [k1, i2]; exact Ne.symm hu
    simp [lock, tryLock, this, k2]

/-- The hypotheses of the two theorems above are satisfiable by a history in which every acquisition is released. -/
example : Disciplined {} (fun _ => 0) [.lock 1, .unlock 1, .lock 1, .tryLock 2, .unlock 1] ∧
    NoReentry {} (fun _ => 0) [.lock 1, .unlock 1, .lock 1, .tryLock 2, .unlock 1] ∧
    (run {} (fun _ => 0) [.lock 1, .unlock 1, .lock 1, .tryLock 2, .unlock 1]).isSome := by
  simp [Disciplined, NoReentry, lock, tryLock, unlock, run, step]

/-- **C31 fails (release).** One `Lock` and one `Unlock` by thread 1 leave the section locked for thread 2. -/
theorem C31_release_fails :
    ∃ s c, run {} (fun _ => 0) [.lock 1, .unlock 1] = some (s, c) ∧ (∀ t, c t = 0) ∧ lock s 2 = none := by
  refine ⟨_, _, rfl, ?_, by decide⟩
  intro t; simp only []; split <;> simp_all

/-- **C31 fails (mutual exclusion).** Thread 1 locks twice and unlocks once (it still holds the section), yet thread 2 can lock. -/
theorem C31_mutex_fails :
    ∃ s c, run {} (fun _ => 0) [.lock 1, .lock 1, .unlock 1, .lock 2] = some (s, c) ∧ 0 < c 1 ∧ 0 < c 2 := by
  refine ⟨_, _, rfl, by decide, by decide⟩

#print axioms C31_mutex_partial
#print axioms C31_never_released
#print axioms C31_release_fails
#print axioms C31_mutex_fails

end Verif.CriticalSection
