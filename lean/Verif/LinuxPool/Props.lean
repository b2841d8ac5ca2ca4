import Verif.LinuxPool.Lemmas
/-!
# C88 – the Linux thread pool runs every accepted task once
-/
namespace Verif.LinuxPool
open Verif.Common

/-! ## Where a task is -/

/-- the task is in the hands of a thread that has not started it -/
def holds (i : Nat) (th : Thr) : Nat := if th.pc ≠ .cb ∧ th.slot = some i then 1 else 0

/-- how often the task `i` exists: started, pending, or handed to a thread -/
def placed (s : St) (i : Nat) : Nat := s.ran.count i + s.pending.count i + sumBy (holds i) s.threads

/-- the call has passed the task on -/
def expect : PPc → Nat
  | .kill _ => 1 | .made _ => 1 | .done true => 1 | _ => 0

def expAt (s : St) (i : Nat) : Nat := ((s.posters[i]?).map expect).getD 0

theorem expAt_set {s t : St} {j : Nat} {p q : PPc} (hp : s.posters[j]? = some p) (ht : t.posters = s.posters.set j q) (i : Nat) :
    expAt t i + (if i = j then expect p else 0) = expAt s i + (if i = j then expect q else 0) := by
  unfold expAt
  rw [ht, List.getElem?_set]
  have hlt : j < s.posters.length := by
    refine Classical.byContradiction fun hn => ?_
    rw [List.getElem?_eq_none (by omega)] at hp
    cases hp
  by_cases e : i = j
  · subst e
    rw [hp]
    simp [hlt]
    omega
  · have e' : ¬ j = i := fun h => e h.symm
    simp [e, e']

theorem expAt_same {s t : St} {j : Nat} {p q : PPc} (hp : s.posters[j]? = some p) (ht : t.posters = s.posters.set j q) (h : expect q = expect p) (i : Nat) :
    expAt t i = expAt s i := by
  have := expAt_set hp ht i
  rw [h] at this
  omega

theorem holds_set {s : St} {a : Nat} {th th' : Thr} (ha : s.threads[a]? = some th) (i : Nat) :
    sumBy (holds i) (s.threads.set a th') + holds i th = sumBy (holds i) s.threads + holds i th' := sumBy_set (holds i) s.threads a th' th ha

/-- what a step does to the places of the tasks -/
theorem placed_step {M : Nat} {multi l : Bool} {s t : St} (h : Step M multi l s t) :
    (∀ i, placed t i = placed s i ∧ expAt t i = expAt s i) ∨
    (∃ j, expAt s j = 0 ∧ ∀ i, placed t i = placed s i + (if i = j then 1 else 0) ∧ expAt t i = expAt s i + (if i = j then 1 else 0)) ∨
    (∃ j a th, s.posters[j]? = some (.got a) ∧ s.threads[a]? = some th ∧
      t = { s with posters := s.posters.set j (.kill a), threads := s.threads.set a { th with slot := some j } }) := by
  have thr : ∀ {a : Nat} {th th' : Thr}, s.threads[a]? = some th → (∀ i, holds i th' = holds i th) →
      ∀ i, sumBy (holds i) (s.threads.set a th') = sumBy (holds i) s.threads := by
    intro a th th' ha hh i
    have := holds_set (th' := th') ha i
    have := hh i
    omega
  have cnt : ∀ (x i : Nat) (l : List Nat), (x :: l).count i = l.count i + (if i = x then 1 else 0) := by
    intro x i l
    rw [List.count_cons]
    by_cases e : x = i
    · simp [e]
    · have e' : ¬ i = x := fun h => e h.symm
      simp [e, e']
  cases h with
  | call =>
    refine .inl fun i => ⟨rfl, ?_⟩
    unfold expAt
    rw [List.getElem?_append]
    split
    · rfl
    · rename_i hge
      rw [List.getElem?_eq_none (by omega : s.posters.length ≤ i)]
      cases hh : i - s.posters.length with
      | zero => simp [expect]
      | succ n => simp
  | popNull _ j hp hi => exact .inl fun i => ⟨rfl, expAt_same hp rfl (by rfl) i⟩
  | popHead _ j a hp hi hm => exact .inl fun i => ⟨rfl, expAt_same hp rfl (by rfl) i⟩
  | popRead _ j a hp => exact .inl fun i => ⟨rfl, expAt_same hp rfl (by rfl) i⟩
  | popCas _ j a n hp hi => exact .inl fun i => ⟨rfl, expAt_same hp rfl (by rfl) i⟩
  | popFail _ j a n b hp hi hb => exact .inl fun i => ⟨rfl, expAt_same hp rfl (by rfl) i⟩
  | popFailNull _ j a n hp hi => exact .inl fun i => ⟨rfl, expAt_same hp rfl (by rfl) i⟩
  | hand _ j a th hp ht => exact .inr (.inr ⟨j, a, th, hp, ht, rfl⟩)
  | kill _ j a th hp ht hm hh =>
    refine .inl fun i => ⟨?_, expAt_same hp rfl (by rfl) i⟩
    unfold placed
    simp only
    rw [thr (th' := { th with sig := true }) ht (fun i => rfl)]
  | killed _ j a th hp ht hm => exact .inl fun i => ⟨rfl, expAt_same hp rfl (by rfl) i⟩
  | count _ j hp => exact .inl fun i => ⟨rfl, expAt_same hp rfl (by rfl) i⟩
  | full _ j c hp hc => exact .inl fun i => ⟨rfl, expAt_same hp rfl (by rfl) i⟩
  | push _ j hp =>
    refine .inr (.inl ⟨j, by simp [expAt, hp, expect], fun i => ⟨?_, ?_⟩⟩)
    · unfold placed
      simp only [List.count_append]
      rw [cnt]
      simp
      omega
    · have := expAt_set (t := { s with posters := s.posters.set j (.done true), pending := s.pending ++ [j] }) hp rfl i
      simpa [expect] using this
  | pushFail _ j hp => exact .inl fun i => ⟨rfl, expAt_same hp rfl (by rfl) i⟩
  | cas _ j c hp hc hn => exact .inl fun i => ⟨rfl, expAt_same hp rfl (by rfl) i⟩
  | casFail _ j c hp hc hn => exact .inl fun i => ⟨rfl, expAt_same hp rfl (by rfl) i⟩
  | allocFail _ j hp => exact .inl fun i => ⟨rfl, expAt_same hp rfl (by rfl) i⟩
  | create _ j hp =>
    refine .inr (.inl ⟨j, by simp [expAt, hp, expect], fun i => ⟨?_, ?_⟩⟩)
    · unfold placed
      simp only [sumBy_append]
      by_cases e : i = j
      · subst e; simp [holds]; omega
      · have e' : ¬ j = i := fun h => e h.symm
        simp [holds, e, e']
    · have := expAt_set (t := { s with posters := s.posters.set j (.made s.threads.length), threads := s.threads ++ [{ slot := some j }] }) hp rfl i
      simpa [expect] using this
  | created _ j a th hp ht =>
    refine .inl fun i => ⟨?_, expAt_same hp rfl (by rfl) i⟩
    unfold placed
    simp only
    rw [thr (th' := { th with handle := true }) ht (fun i => rfl)]
  | run _ a th x ht hpc hs =>
    refine .inl fun i => ⟨?_, rfl⟩
    unfold placed
    have := holds_set (th' := { th with pc := .cb }) ht i
    simp only
    rw [cnt]
    by_cases e : i = x
    · subst e; simp [holds, hpc, hs] at this ⊢; omega
    · have e' : ¬ x = i := fun h => e h.symm
      simp [holds, hpc, hs, e, e'] at this ⊢; omega
  | runNone _ a th ht hpc hs =>
    refine .inl fun i => ⟨?_, rfl⟩
    unfold placed
    rw [thr ht (fun i => by simp [holds, hs])]
  | clear _ a th ht hpc =>
    refine .inl fun i => ⟨?_, rfl⟩
    unfold placed
    rw [thr ht (fun i => by simp [holds, hpc])]
  | take _ a th x rest ht hpc hs =>
    refine .inl fun i => ⟨?_, rfl⟩
    unfold placed
    simp only
    rw [thr ht (fun i => by simp [holds, hpc]), hs, cnt, cnt]
    omega
  | took _ a th ht hpc =>
    refine .inl fun i => ⟨?_, rfl⟩
    unfold placed
    rw [thr ht (fun i => by simp [holds, hpc])]
  | park _ a th ht hpc hs =>
    refine .inl fun i => ⟨?_, rfl⟩
    unfold placed
    rw [thr ht (fun i => by simp [holds, hpc])]
  | mask _ a th ht hpc =>
    refine .inl fun i => ⟨?_, rfl⟩
    unfold placed
    rw [thr ht (fun i => by simp [holds, hpc])]
  | wake _ a th ht hpc hs =>
    refine .inl fun i => ⟨?_, rfl⟩
    unfold placed
    rw [thr ht (fun i => by simp [holds, hpc])]

/-- with one `Pop` at a time every task exists exactly as often as its call has passed it on -/
theorem placed_reach {M : Nat} {s : St} (h : Reach M false s) (i : Nat) : placed s i = expAt s i := by
  induction h with
  | init => rfl
  | @step l s t hr hs ih =>
    rcases placed_step hs with h | ⟨j, _, h⟩ | ⟨j, a, th, hp, ht, rfl⟩
    · rw [(h i).1, (h i).2, ih]
    · rw [(h i).1, (h i).2, ih]
    · have o := oinv_reach hr
      have tk := o.thr _ _ ht
      have hg1 : 1 ≤ sumBy (g a) s.posters := by have := le_sumBy (g a) s.posters j _ hp; rw [g_self] at this; exact this
      have hpk : th.pc.parked := by
        refine Classical.byContradiction fun hn => ?_
        have := (tk.active hn).1
        omega
      have hsl := tk.empty hpk (by omega)
      have hcb : th.pc ≠ .cb := by intro e; rw [e] at hpk; exact hpk
      have h1 := holds_set (th' := { th with slot := some j }) ht i
      have h2 := expAt_set (t := { s with posters := s.posters.set j (.kill a), threads := s.threads.set a { th with slot := some j } }) hp rfl i
      unfold placed at ih ⊢
      by_cases e : i = j
      · subst e
        have e1 : holds i th = 0 := by simp [holds, hsl]
        have e2 : holds i { th with slot := some i } = 1 := by simp [holds, hcb]
        simp [expect] at h2
        simp only
        omega
      · have e' : ¬ j = i := fun h => e h.symm
        have e1 : holds i th = 0 := by simp [holds, hsl]
        have e2 : holds i { th with slot := some j } = 0 := by simp [holds, e']
        simp [e] at h2
        simp only
        omega

/-! ## The claims -/

/-- **C88**: there are never more threads than the limit, whatever the calls do (many `Pop`s at once, failures, races for the counter). -/
theorem C88_limit {M : Nat} {multi : Bool} {s : St} (h : Reach M multi s) : s.threads.length ≤ M ∧ s.threads.length ≤ s.count ∧ s.count ≤ M := by
  have i := cinv_reach h
  have h1 := i.count
  have h2 := i.max
  omega

/-- the number in the code -/
theorem C88_limit_500 {multi : Bool} {s : St} (h : Reach maxThreads multi s) : s.threads.length ≤ 500 := (C88_limit h).1

/-- **C88**, partial: no task is started twice, and none that was not posted.  Missing: several `Pop`s at once (`C88_aba_fails`). -/
theorem C88_once_partial {M : Nat} {s : St} (h : Reach M false s) (i : Nat) :
    s.ran.count i ≤ 1 ∧ (i ∈ s.ran → i < s.posters.length) := by
  have hp := placed_reach h i
  have he : expAt s i ≤ 1 := by
    unfold expAt
    cases s.posters[i]? with
    | none => simp
    | some p => cases p with
      | done b => cases b <;> simp [expect]
      | _ => simp [expect]
  unfold placed at hp
  refine ⟨by omega, fun hm => ?_⟩
  refine Classical.byContradiction fun hn => ?_
  have : expAt s i = 0 := by unfold expAt; rw [List.getElem?_eq_none (by omega)]; rfl
  have := List.count_pos_iff.2 hm
  omega

/-- **C88**, partial: a refused task is not started.  Missing: as before. -/
theorem C88_refused_partial {M : Nat} {s : St} (h : Reach M false s) (i : Nat) (hd : s.posters[i]? = some (.done false)) : i ∉ s.ran := by
  intro hm
  have hp := placed_reach h i
  have : expAt s i = 0 := by simp [expAt, hd, expect]
  have := List.count_pos_iff.2 hm
  unfold placed at hp
  omega

/-- **C88**, partial: an accepted task has been started, or is pending, or is in the hands of a thread.  Missing: as before. -/
theorem C88_kept_partial {M : Nat} {s : St} (h : Reach M false s) (i : Nat) (hd : s.posters[i]? = some (.done true)) :
    i ∈ s.ran ∨ i ∈ s.pending ∨ ∃ th ∈ s.threads, th.slot = some i ∧ th.pc ≠ .cb := by
  have hp := placed_reach h i
  have : expAt s i = 1 := by simp [expAt, hd, expect]
  unfold placed at hp
  by_cases h1 : i ∈ s.ran
  · exact .inl h1
  · by_cases h2 : i ∈ s.pending
    · exact .inr (.inl h2)
    · rw [List.count_eq_zero.2 h1, List.count_eq_zero.2 h2] at hp
      obtain ⟨th, hm, hh⟩ := sumBy_pos (holds i) s.threads (by omega)
      refine .inr (.inr ⟨th, hm, ?_⟩)
      unfold holds at hh
      split at hh
      · rename_i hc; exact ⟨hc.2, hc.1⟩
      · omega

/-- the pool has nothing left to do -/
def Quiet (M : Nat) (multi : Bool) (s : St) : Prop := ∀ t, ¬ Step M multi true s t

theorem made_lt {M : Nat} {multi : Bool} {s : St} (h : Reach M multi s) : ∀ (i a : Nat), s.posters[i]? = some (.made a) → a < s.threads.length := by
  induction h with
  | init => intro i a h; simp [init] at h
  | @step l s t hr hs ih =>
    intro i a h
    cases hs with
    | call =>
      rw [List.getElem?_append] at h
      split at h
      · exact ih i a h
      · cases hh : i - s.posters.length with
        | zero => rw [hh] at h; simp at h
        | succ n => rw [hh] at h; simp at h
    | create _ j hp =>
      simp only [List.length_append, List.length_cons, List.length_nil]
      rcases get_set h with ⟨_, e⟩ | ⟨_, e⟩
      · injection e with e; omega
      · have := ih i a e; omega
    | run => simpa using ih i a h
    | runNone => simpa using ih i a h
    | clear => simpa using ih i a h
    | take => simpa using ih i a h
    | took => simpa using ih i a h
    | park => simpa using ih i a h
    | mask => simpa using ih i a h
    | wake => simpa using ih i a h
    | _ =>
      rcases get_set h with ⟨_, e⟩ | ⟨_, e⟩
      · cases e
      · simpa using ih i a e

/-- **C88**, partial: the pool comes to rest only when every call has returned, every thread waits for a signal and nothing is in the hands of a thread.
Missing: as before; and the crash of `C88_crash_fails`. -/
theorem C88_quiet_partial {M : Nat} {s : St} (h : Reach M false s) (hc : s.crashed = false) (hq : Quiet M false s) :
    (∀ p ∈ s.posters, ∃ b, p = .done b) ∧ (∀ th ∈ s.threads, th.pc = .wait ∧ th.slot = none) := by
  have o := oinv_reach h
  have idx : ∀ a, 0 < sumBy (g a) s.posters + sumBy (k a) s.posters → ∃ th, s.threads[a]? = some th := by
    intro a ha
    by_cases hl : a < s.threads.length
    · exact ⟨_, List.getElem?_eq_getElem hl⟩
    · have := o.out a (by omega); omega
  have nopop : ∀ (j : Nat) p, s.posters[j]? = some p → p.popping = 0 := by
    intro j p hp
    cases p with
    | popAt a => exact absurd (Step.popRead s j a hp) (hq _)
    | popNext a n =>
      cases hh : s.idle with
      | nil => exact absurd (Step.popFailNull s j a n hp hh) (hq _)
      | cons b r =>
        by_cases e : b = a
        · subst e; exact absurd (Step.popCas s j b n hp (by rw [hh]; rfl)) (hq _)
        · exact absurd (Step.popFail s j a n b hp (by rw [hh]; rfl) e) (hq _)
    | _ => rfl
  have posters : ∀ (j : Nat) p, s.posters[j]? = some p → ∃ b, p = .done b := by
    intro j p hp
    cases p with
    | pop =>
      cases hh : s.idle with
      | nil => exact absurd (Step.popNull s j hp hh) (hq _)
      | cons b r => exact absurd (Step.popHead s j b hp (by rw [hh]; rfl) (fun _ => nopop)) (hq _)
    | popAt a => have := nopop _ _ hp; cases this
    | popNext a n => have := nopop _ _ hp; cases this
    | got a =>
      obtain ⟨th, ht⟩ := idx a (by have := le_sumBy (g a) s.posters j _ hp; rw [g_self] at this; omega)
      exact absurd (Step.hand s j a th hp ht) (hq _)
    | kill a =>
      obtain ⟨th, ht⟩ := idx a (by have := le_sumBy (k a) s.posters j _ hp; rw [k_self] at this; omega)
      by_cases h1 : th.masked = true ∧ th.handle = true
      · exact absurd (Step.kill s j a th hp ht h1.1 h1.2) (hq _)
      · refine absurd (Step.killed s j a th hp ht ?_) (hq _)
        cases hm : th.masked with
        | false => exact .inl rfl
        | true =>
          cases hh : th.handle with
          | false => exact .inr rfl
          | true => exact absurd ⟨hm, hh⟩ h1
    | count => exact absurd (Step.count s j hp) (hq _)
    | loop c =>
      by_cases h1 : M ≤ c
      · exact absurd (Step.full s j c hp h1) (hq _)
      · by_cases h2 : s.count = c
        · exact absurd (Step.cas s j c hp (by omega) h2) (hq _)
        · exact absurd (Step.casFail s j c hp (by omega) h2) (hq _)
    | full => exact absurd (Step.push s j hp) (hq _)
    | alloc => exact absurd (Step.create s j hp) (hq _)
    | made a =>
      have hl := made_lt h j a hp
      exact absurd (Step.created s j a _ hp (List.getElem?_eq_getElem hl)) (hq _)
    | done b => exact ⟨b, rfl⟩
  refine ⟨fun p hp => ?_, fun th hm => ?_⟩
  · obtain ⟨j, hj⟩ := List.getElem?_of_mem hp
    exact posters j p hj
  · obtain ⟨a, ha⟩ := List.getElem?_of_mem hm
    have tk := o.thr a th ha
    have hw : th.pc = .wait := by
      cases hpc : th.pc with
      | run =>
        cases hs : th.slot with
        | none => exact absurd (Step.runNone s a th ha hpc hs) (hq _)
        | some x => exact absurd (Step.run s a th x ha hpc hs) (hq _)
      | cb => exact absurd (Step.clear s a th ha hpc) (hq _)
      | drain =>
        cases hs : s.pending with
        | nil => exact absurd (Step.park s a th ha hpc hs) (hq _)
        | cons x r => exact absurd (Step.take s a th x r ha hpc hs) (hq _)
      | cb2 => exact absurd (Step.took s a th ha hpc) (hq _)
      | idle1 => exact absurd (Step.mask s a th ha hpc) (hq _)
      | wait => rfl
    refine ⟨hw, ?_⟩
    have hpk : th.pc.parked := by rw [hw]; trivial
    have hsig : th.sig = false := by
      cases hs : th.sig with
      | false => rfl
      | true => exact absurd (Step.wake s a th ha hw hs) (hq _)
    have hk0 : sumBy (k a) s.posters = 0 := sum_zero (fun j p hp => by
      obtain ⟨b, rfl⟩ := posters j p hp
      simp [k])
    have hkn := tk.known hpk hc
    rw [hsig, hk0] at hkn
    simp at hkn
    exact tk.empty hpk (by omega)

/-- **C88**, partial: as long as there have not been more calls than the limit of threads, a pool at rest has run every accepted task exactly once.  Missing: as
before; and the pending queue of `C88_stuck_fails`. -/
theorem C88_all_run_partial {M : Nat} {s : St} (h : Reach M false s) (hc : s.crashed = false) (hq : Quiet M false s) (hn : s.posters.length ≤ M)
    (i : Nat) (hd : s.posters[i]? = some (.done true)) : s.ran.count i = 1 := by
  have hpend : s.pending = [] := by
    cases hh : s.pending with
    | nil => rfl
    | cons x r => have := (cinv_reach h).pend (by rw [hh]; simp); omega
  rcases C88_kept_partial h i hd with h1 | h1 | ⟨th, hm, hs, _⟩
  · have := (C88_once_partial h i).1
    have := List.count_pos_iff.2 h1
    omega
  · rw [hpend] at h1; cases h1
  · have := ((C88_quiet_partial h hc hq).2 th hm).2
    rw [hs] at this
    cases this

/-! ## Where the claim is not met -/

/-- The first signal: a new thread announces itself as idle (107) before it blocks `SIGUSR1` (109).  A caller that is quick enough sends the signal into the default
action, which ends the process. -/
theorem C88_crash_fails (M : Nat) (hM : 0 < M) : ∃ s, Reach M false s ∧ s.crashed = true ∧ s.threads.length = 1 ∧ s.posters = [.done true, .done true] := by
  have h0 : Reach M false init := .init
  have h1 : Reach M false ⟨0, [], [], [], [.pop], [], false⟩ :=
    .step h0 (.call _)
  have h2 : Reach M false ⟨0, [], [], [], [.count], [], false⟩ :=
    .step h1 (.popNull _ 0 rfl rfl)
  have h3 : Reach M false ⟨0, [], [], [], [.loop 0], [], false⟩ :=
    .step h2 (.count _ 0 rfl)
  have h4 : Reach M false ⟨1, [], [], [], [.alloc], [], false⟩ :=
    .step h3 (.cas _ 0 0 rfl (hM) rfl)
  have h5 : Reach M false ⟨1, [], [], [⟨.run, some 0, false, false, false⟩], [.made 0], [], false⟩ :=
    .step h4 (.create _ 0 rfl)
  have h6 : Reach M false ⟨1, [], [], [⟨.run, some 0, false, false, true⟩], [.done true], [], false⟩ :=
    .step h5 (.created _ 0 0 { slot := some 0 } rfl rfl)
  have h7 : Reach M false ⟨1, [], [], [⟨.cb, some 0, false, false, true⟩], [.done true], [0], false⟩ :=
    .step h6 (.run _ 0 ⟨.run, some 0, false, false, true⟩ 0 rfl rfl rfl)
  have h8 : Reach M false ⟨1, [], [], [⟨.drain, none, false, false, true⟩], [.done true], [0], false⟩ :=
    .step h7 (.clear _ 0 ⟨.cb, some 0, false, false, true⟩ rfl rfl)
  have h9 : Reach M false ⟨1, [0], [], [⟨.idle1, none, false, false, true⟩], [.done true], [0], false⟩ :=
    .step h8 (.park _ 0 ⟨.drain, none, false, false, true⟩ rfl rfl rfl)
  have h10 : Reach M false ⟨1, [0], [], [⟨.idle1, none, false, false, true⟩], [.done true, .pop], [0], false⟩ :=
    .step h9 (.call _)
  have h11 : Reach M false ⟨1, [0], [], [⟨.idle1, none, false, false, true⟩], [.done true, .popAt 0], [0], false⟩ :=
    .step h10 (.popHead _ 1 0 rfl rfl (fun _ j p hp => by
      match j, hp with
      | 0, hp => cases hp; rfl
      | 1, hp => cases hp; rfl
      | j + 2, hp => cases hp))
  have h12 : Reach M false ⟨1, [0], [], [⟨.idle1, none, false, false, true⟩], [.done true, .popNext 0 none], [0], false⟩ :=
    .step h11 (.popRead _ 1 0 rfl)
  have h13 : Reach M false ⟨1, [], [], [⟨.idle1, none, false, false, true⟩], [.done true, .got 0], [0], false⟩ :=
    .step h12 (.popCas _ 1 0 none rfl rfl)
  have h14 : Reach M false ⟨1, [], [], [⟨.idle1, some 1, false, false, true⟩], [.done true, .kill 0], [0], false⟩ :=
    .step h13 (.hand _ 1 0 ⟨.idle1, none, false, false, true⟩ rfl rfl)
  have h15 : Reach M false ⟨1, [], [], [⟨.idle1, some 1, false, false, true⟩], [.done true, .done true], [0], true⟩ :=
    .step h14 (.killed _ 1 0 ⟨.idle1, some 1, false, false, true⟩ rfl rfl (.inl rfl))
  exact ⟨_, h15, rfl, rfl, rfl⟩

/-- a task that exists nowhere stays lost -/
theorem lost_step {M : Nat} {multi l : Bool} {s t : St} {i : Nat} (h : Step M multi l s t) (hl : placed s i = 0) (hd : s.posters[i]? = some (.done true)) :
    placed t i = 0 ∧ t.posters[i]? = some (.done true) := by
  have hpost : t.posters[i]? = some (.done true) := by
    have mv : ∀ {j : Nat} {p q : PPc}, s.posters[j]? = some p → p ≠ .done true → (s.posters.set j q)[i]? = some (.done true) := by
      intro j p q hp hne
      rw [List.getElem?_set]
      by_cases e : j = i
      · subst e; rw [hp] at hd; injection hd with hd; exact absurd hd hne
      · rw [if_neg e]; exact hd
    cases h with
    | call =>
      rw [List.getElem?_append]
      split
      · exact hd
      · rename_i hge; rw [List.getElem?_eq_none (by omega)] at hd; cases hd
    | popNull _ j hp hi => exact mv hp (by intro e; cases e)
    | popHead _ j a hp hi hm => exact mv hp (by intro e; cases e)
    | popRead _ j a hp => exact mv hp (by intro e; cases e)
    | popCas _ j a n hp hi => exact mv hp (by intro e; cases e)
    | popFail _ j a n b hp hi hb => exact mv hp (by intro e; cases e)
    | popFailNull _ j a n hp hi => exact mv hp (by intro e; cases e)
    | hand _ j a th hp ht => exact mv hp (by intro e; cases e)
    | kill _ j a th hp ht hm hh => exact mv hp (by intro e; cases e)
    | killed _ j a th hp ht hm => exact mv hp (by intro e; cases e)
    | count _ j hp => exact mv hp (by intro e; cases e)
    | full _ j c hp hc => exact mv hp (by intro e; cases e)
    | push _ j hp => exact mv hp (by intro e; cases e)
    | pushFail _ j hp => exact mv hp (by intro e; cases e)
    | cas _ j c hp hc hn => exact mv hp (by intro e; cases e)
    | casFail _ j c hp hc hn => exact mv hp (by intro e; cases e)
    | allocFail _ j hp => exact mv hp (by intro e; cases e)
    | create _ j hp => exact mv hp (by intro e; cases e)
    | created _ j a th hp ht => exact mv hp (by intro e; cases e)
    | _ => exact hd
  refine ⟨?_, hpost⟩
  rcases placed_step h with h | ⟨j, hj, h⟩ | ⟨j, a, th, hp, ht, rfl⟩
  · rw [(h i).1, hl]
  · have hne : i ≠ j := by
      intro e
      subst e
      simp [expAt, hd, expect] at hj
    rw [(h i).1, hl, if_neg hne]
  · have hne : ¬ j = i := by
      intro e
      subst e
      rw [hp] at hd
      cases hd
    have h1 := holds_set (th' := { th with slot := some j }) ht i
    have h2 : holds i { th with slot := some j } = 0 := by simp [holds, hne]
    unfold placed at hl ⊢
    simp only
    omega

theorem lost_steps {M : Nat} {multi : Bool} {s t : St} {i : Nat} (h : Steps M multi s t) (hl : placed s i = 0) (hd : s.posters[i]? = some (.done true)) :
    placed t i = 0 ∧ t.posters[i]? = some (.done true) := by
  induction h with
  | refl => exact ⟨hl, hd⟩
  | tail _ h1 ih => exact lost_step h1 (ih hl hd).1 (ih hl hd).2

/-- Several `Pop`s at once: between reading `pNext` of the head and the exchange the head is popped, its successor is popped and given a task, and the head comes back.
The exchange succeeds and puts the busy successor on the stack again; the next caller overwrites its task.  A task that was accepted with `S_OK` is never run. -/
theorem C88_aba_fails (M : Nat) (hM : 2 ≤ M) :
    ∃ s, Reach M true s ∧ s.crashed = false ∧ s.posters[4]? = some (.done true) ∧ 4 ∉ s.ran ∧ ∀ t, Steps M true s t → 4 ∉ t.ran := by
  have h0 : Reach M true init := .init
  have h1 : Reach M true ⟨0, [], [], [], [.pop], [], false⟩ :=
    .step h0 (.call _)
  have h2 : Reach M true ⟨0, [], [], [], [.pop, .pop], [], false⟩ :=
    .step h1 (.call _)
  have h3 : Reach M true ⟨0, [], [], [], [.count, .pop], [], false⟩ :=
    .step h2 (.popNull _ 0 rfl rfl)
  have h4 : Reach M true ⟨0, [], [], [], [.loop 0, .pop], [], false⟩ :=
    .step h3 (.count _ 0 rfl)
  have h5 : Reach M true ⟨1, [], [], [], [.alloc, .pop], [], false⟩ :=
    .step h4 (.cas _ 0 0 rfl (by omega) rfl)
  have h6 : Reach M true ⟨1, [], [], [⟨.run, some 0, false, false, false⟩], [.made 0, .pop], [], false⟩ :=
    .step h5 (.create _ 0 rfl)
  have h7 : Reach M true ⟨1, [], [], [⟨.run, some 0, false, false, true⟩], [.done true, .pop], [], false⟩ :=
    .step h6 (.created _ 0 0 { slot := some 0 } rfl rfl)
  have h8 : Reach M true ⟨1, [], [], [⟨.run, some 0, false, false, true⟩], [.done true, .count], [], false⟩ :=
    .step h7 (.popNull _ 1 rfl rfl)
  have h9 : Reach M true ⟨1, [], [], [⟨.run, some 0, false, false, true⟩], [.done true, .loop 1], [], false⟩ :=
    .step h8 (.count _ 1 rfl)
  have h10 : Reach M true ⟨2, [], [], [⟨.run, some 0, false, false, true⟩], [.done true, .alloc], [], false⟩ :=
    .step h9 (.cas _ 1 1 rfl (by omega) rfl)
  have h11 : Reach M true ⟨2, [], [], [⟨.run, some 0, false, false, true⟩, ⟨.run, some 1, false, false, false⟩], [.done true, .made 1], [], false⟩ :=
    .step h10 (.create _ 1 rfl)
  have h12 : Reach M true ⟨2, [], [], [⟨.run, some 0, false, false, true⟩, ⟨.run, some 1, false, false, true⟩], [.done true, .done true], [], false⟩ :=
    .step h11 (.created _ 1 1 { slot := some 1 } rfl rfl)
  have h13 : Reach M true ⟨2, [], [], [⟨.run, some 0, false, false, true⟩, ⟨.cb, some 1, false, false, true⟩], [.done true, .done true], [1], false⟩ :=
    .step h12 (.run _ 1 ⟨.run, some 1, false, false, true⟩ 1 rfl rfl rfl)
  have h14 : Reach M true ⟨2, [], [], [⟨.run, some 0, false, false, true⟩, ⟨.drain, none, false, false, true⟩], [.done true, .done true], [1], false⟩ :=
    .step h13 (.clear _ 1 ⟨.cb, some 1, false, false, true⟩ rfl rfl)
  have h15 : Reach M true ⟨2, [1], [], [⟨.run, some 0, false, false, true⟩, ⟨.idle1, none, false, false, true⟩], [.done true, .done true], [1], false⟩ :=
    .step h14 (.park _ 1 ⟨.drain, none, false, false, true⟩ rfl rfl rfl)
  have h16 : Reach M true ⟨2, [1], [], [⟨.run, some 0, false, false, true⟩, ⟨.wait, none, true, false, true⟩], [.done true, .done true], [1], false⟩ :=
    .step h15 (.mask _ 1 ⟨.idle1, none, false, false, true⟩ rfl rfl)
  have h17 : Reach M true ⟨2, [1], [], [⟨.cb, some 0, false, false, true⟩, ⟨.wait, none, true, false, true⟩], [.done true, .done true], [0, 1], false⟩ :=
    .step h16 (.run _ 0 ⟨.run, some 0, false, false, true⟩ 0 rfl rfl rfl)
  have h18 : Reach M true ⟨2, [1], [], [⟨.drain, none, false, false, true⟩, ⟨.wait, none, true, false, true⟩], [.done true, .done true], [0, 1], false⟩ :=
    .step h17 (.clear _ 0 ⟨.cb, some 0, false, false, true⟩ rfl rfl)
  have h19 : Reach M true ⟨2, [0, 1], [], [⟨.idle1, none, false, false, true⟩, ⟨.wait, none, true, false, true⟩], [.done true, .done true], [0, 1], false⟩ :=
    .step h18 (.park _ 0 ⟨.drain, none, false, false, true⟩ rfl rfl rfl)
  have h20 : Reach M true ⟨2, [0, 1], [], [⟨.wait, none, true, false, true⟩, ⟨.wait, none, true, false, true⟩], [.done true, .done true], [0, 1], false⟩ :=
    .step h19 (.mask _ 0 ⟨.idle1, none, false, false, true⟩ rfl rfl)
  have h21 : Reach M true ⟨2, [0, 1], [], [⟨.wait, none, true, false, true⟩, ⟨.wait, none, true, false, true⟩], [.done true, .done true, .pop], [0, 1], false⟩ :=
    .step h20 (.call _)
  have h22 : Reach M true ⟨2, [0, 1], [], [⟨.wait, none, true, false, true⟩, ⟨.wait, none, true, false, true⟩], [.done true, .done true, .popAt 0], [0, 1], false⟩ :=
    .step h21 (.popHead _ 2 0 rfl rfl (fun h => by cases h))
  have h23 : Reach M true ⟨2, [0, 1], [], [⟨.wait, none, true, false, true⟩, ⟨.wait, none, true, false, true⟩], [.done true, .done true, .popNext 0 (some 1)], [0, 1], false⟩ :=
    .step h22 (.popRead _ 2 0 rfl)
  have h24 : Reach M true ⟨2, [0, 1], [], [⟨.wait, none, true, false, true⟩, ⟨.wait, none, true, false, true⟩], [.done true, .done true, .popNext 0 (some 1), .pop], [0, 1], false⟩ :=
    .step h23 (.call _)
  have h25 : Reach M true ⟨2, [0, 1], [], [⟨.wait, none, true, false, true⟩, ⟨.wait, none, true, false, true⟩], [.done true, .done true, .popNext 0 (some 1), .popAt 0], [0, 1], false⟩ :=
    .step h24 (.popHead _ 3 0 rfl rfl (fun h => by cases h))
  have h26 : Reach M true ⟨2, [0, 1], [], [⟨.wait, none, true, false, true⟩, ⟨.wait, none, true, false, true⟩], [.done true, .done true, .popNext 0 (some 1), .popNext 0 (some 1)], [0, 1], false⟩ :=
    .step h25 (.popRead _ 3 0 rfl)
  have h27 : Reach M true ⟨2, [1], [], [⟨.wait, none, true, false, true⟩, ⟨.wait, none, true, false, true⟩], [.done true, .done true, .popNext 0 (some 1), .got 0], [0, 1], false⟩ :=
    .step h26 (.popCas _ 3 0 (some 1) rfl rfl)
  have h28 : Reach M true ⟨2, [1], [], [⟨.wait, some 3, true, false, true⟩, ⟨.wait, none, true, false, true⟩], [.done true, .done true, .popNext 0 (some 1), .kill 0], [0, 1], false⟩ :=
    .step h27 (.hand _ 3 0 ⟨.wait, none, true, false, true⟩ rfl rfl)
  have h29 : Reach M true ⟨2, [1], [], [⟨.wait, some 3, true, true, true⟩, ⟨.wait, none, true, false, true⟩], [.done true, .done true, .popNext 0 (some 1), .done true], [0, 1], false⟩ :=
    .step h28 (.kill _ 3 0 ⟨.wait, some 3, true, false, true⟩ rfl rfl rfl rfl)
  have h30 : Reach M true ⟨2, [1], [], [⟨.wait, some 3, true, true, true⟩, ⟨.wait, none, true, false, true⟩], [.done true, .done true, .popNext 0 (some 1), .done true, .pop], [0, 1], false⟩ :=
    .step h29 (.call _)
  have h31 : Reach M true ⟨2, [1], [], [⟨.wait, some 3, true, true, true⟩, ⟨.wait, none, true, false, true⟩], [.done true, .done true, .popNext 0 (some 1), .done true, .popAt 1], [0, 1], false⟩ :=
    .step h30 (.popHead _ 4 1 rfl rfl (fun h => by cases h))
  have h32 : Reach M true ⟨2, [1], [], [⟨.wait, some 3, true, true, true⟩, ⟨.wait, none, true, false, true⟩], [.done true, .done true, .popNext 0 (some 1), .done true, .popNext 1 none], [0, 1], false⟩ :=
    .step h31 (.popRead _ 4 1 rfl)
  have h33 : Reach M true ⟨2, [], [], [⟨.wait, some 3, true, true, true⟩, ⟨.wait, none, true, false, true⟩], [.done true, .done true, .popNext 0 (some 1), .done true, .got 1], [0, 1], false⟩ :=
    .step h32 (.popCas _ 4 1 none rfl rfl)
  have h34 : Reach M true ⟨2, [], [], [⟨.wait, some 3, true, true, true⟩, ⟨.wait, some 4, true, false, true⟩], [.done true, .done true, .popNext 0 (some 1), .done true, .kill 1], [0, 1], false⟩ :=
    .step h33 (.hand _ 4 1 ⟨.wait, none, true, false, true⟩ rfl rfl)
  have h35 : Reach M true ⟨2, [], [], [⟨.wait, some 3, true, true, true⟩, ⟨.wait, some 4, true, true, true⟩], [.done true, .done true, .popNext 0 (some 1), .done true, .done true], [0, 1], false⟩ :=
    .step h34 (.kill _ 4 1 ⟨.wait, some 4, true, false, true⟩ rfl rfl rfl rfl)
  have h36 : Reach M true ⟨2, [], [], [⟨.run, some 3, true, false, true⟩, ⟨.wait, some 4, true, true, true⟩], [.done true, .done true, .popNext 0 (some 1), .done true, .done true], [0, 1], false⟩ :=
    .step h35 (.wake _ 0 ⟨.wait, some 3, true, true, true⟩ rfl rfl rfl)
  have h37 : Reach M true ⟨2, [], [], [⟨.cb, some 3, true, false, true⟩, ⟨.wait, some 4, true, true, true⟩], [.done true, .done true, .popNext 0 (some 1), .done true, .done true], [3, 0, 1], false⟩ :=
    .step h36 (.run _ 0 ⟨.run, some 3, true, false, true⟩ 3 rfl rfl rfl)
  have h38 : Reach M true ⟨2, [], [], [⟨.drain, none, true, false, true⟩, ⟨.wait, some 4, true, true, true⟩], [.done true, .done true, .popNext 0 (some 1), .done true, .done true], [3, 0, 1], false⟩ :=
    .step h37 (.clear _ 0 ⟨.cb, some 3, true, false, true⟩ rfl rfl)
  have h39 : Reach M true ⟨2, [0], [], [⟨.idle1, none, true, false, true⟩, ⟨.wait, some 4, true, true, true⟩], [.done true, .done true, .popNext 0 (some 1), .done true, .done true], [3, 0, 1], false⟩ :=
    .step h38 (.park _ 0 ⟨.drain, none, true, false, true⟩ rfl rfl rfl)
  have h40 : Reach M true ⟨2, [1], [], [⟨.idle1, none, true, false, true⟩, ⟨.wait, some 4, true, true, true⟩], [.done true, .done true, .got 0, .done true, .done true], [3, 0, 1], false⟩ :=
    .step h39 (.popCas _ 2 0 (some 1) rfl rfl)
  have h41 : Reach M true ⟨2, [1], [], [⟨.idle1, none, true, false, true⟩, ⟨.wait, some 4, true, true, true⟩], [.done true, .done true, .got 0, .done true, .done true, .pop], [3, 0, 1], false⟩ :=
    .step h40 (.call _)
  have h42 : Reach M true ⟨2, [1], [], [⟨.idle1, none, true, false, true⟩, ⟨.wait, some 4, true, true, true⟩], [.done true, .done true, .got 0, .done true, .done true, .popAt 1], [3, 0, 1], false⟩ :=
    .step h41 (.popHead _ 5 1 rfl rfl (fun h => by cases h))
  have h43 : Reach M true ⟨2, [1], [], [⟨.idle1, none, true, false, true⟩, ⟨.wait, some 4, true, true, true⟩], [.done true, .done true, .got 0, .done true, .done true, .popNext 1 none], [3, 0, 1], false⟩ :=
    .step h42 (.popRead _ 5 1 rfl)
  have h44 : Reach M true ⟨2, [], [], [⟨.idle1, none, true, false, true⟩, ⟨.wait, some 4, true, true, true⟩], [.done true, .done true, .got 0, .done true, .done true, .got 1], [3, 0, 1], false⟩ :=
    .step h43 (.popCas _ 5 1 none rfl rfl)
  have h45 : Reach M true ⟨2, [], [], [⟨.idle1, none, true, false, true⟩, ⟨.wait, some 5, true, true, true⟩], [.done true, .done true, .got 0, .done true, .done true, .kill 1], [3, 0, 1], false⟩ :=
    .step h44 (.hand _ 5 1 ⟨.wait, some 4, true, true, true⟩ rfl rfl)
  refine ⟨_, h45, rfl, rfl, by decide, fun t ht hm => ?_⟩
  have := (lost_steps (i := 4) ht (by decide) rfl).1
  have := List.count_pos_iff.2 hm
  unfold placed at *
  omega

/-! ### The pending queue -/

/-- `n` threads, thread and task `k` belong together; the first `w` of them wait, the others have not begun; all `n` calls are done -/
structure Fam (n w : Nat) (s : St) : Prop where
  count : s.count = n
  pend : s.pending = []
  len : s.threads.length = n
  ok : s.crashed = false
  waits : ∀ a, a < w → ∃ th, s.threads[a]? = some th ∧ th.pc = .wait ∧ th.sig = false
  begins : ∀ a, w ≤ a → a < n → ∃ th, s.threads[a]? = some th ∧ th.pc = .run ∧ th.slot = some a

theorem set_get_eq {α : Type} {l : List α} {i : Nat} {x y : α} (h : l[i]? = some y) : (l.set i x)[i]? = some x := by
  have hlt : i < l.length := by
    refine Classical.byContradiction fun hn => ?_
    rw [List.getElem?_eq_none (by omega)] at h
    cases h
  rw [List.getElem?_set]
  simp [hlt]

theorem set_get_ne {α : Type} {l : List α} {i j : Nat} {x : α} (h : i ≠ j) : (l.set i x)[j]? = l[j]? := by
  rw [List.getElem?_set, if_neg h]

/-- `n` calls make `n` threads -/
theorem fam_create (M : Nat) (n : Nat) (hn : n ≤ M) :
    ∃ s, Reach M false s ∧ Fam n 0 s ∧ s.idle = [] ∧ s.posters = List.replicate n (.done true) := by
  induction n with
  | zero => exact ⟨init, .init, ⟨rfl, rfl, rfl, rfl, fun a h => (by omega), fun a _ h => (by omega)⟩, rfl, rfl⟩
  | succ n ih =>
    obtain ⟨s, hr, f, hi, hp⟩ := ih (by omega)
    have hlen : s.posters.length = n := by rw [hp]; simp
    have q : ∀ p, (s.posters ++ [p])[n]? = some p := fun p => by rw [List.getElem?_append]; simp [hlen]
    have qs : ∀ p p' : PPc, (s.posters ++ [p]).set n p' = s.posters ++ [p'] := fun p p' => by rw [List.set_append]; simp [hlen]
    have h1 := Reach.step hr (.call _)
    have h2 := Reach.step h1 (.popNull _ n (q _) hi)
    simp only [qs] at h2
    have h3 := Reach.step h2 (.count _ n (q _))
    simp only [qs] at h3
    have h4 := Reach.step h3 (.cas _ n s.count (q _) (by rw [f.count]; omega) rfl)
    simp only [qs] at h4
    have h5 := Reach.step h4 (.create _ n (q _))
    simp only [qs] at h5
    have h6 := Reach.step h5 (.created _ n s.threads.length { slot := some n } (q _) (by simp))
    simp only [qs] at h6
    refine ⟨_, h6, ⟨by simp [f.count], f.pend, by simp [f.len], f.ok, fun a h => (by omega), fun a _ h => ?_⟩, hi, ?_⟩
    · by_cases e : a = n
      · subst e
        refine ⟨{ slot := some a, handle := true }, ?_, rfl, rfl⟩
        simp only [f.len]
        exact set_get_eq (y := { slot := some a }) (by rw [List.getElem?_append]; simp [f.len])
      · obtain ⟨th, ht, h1, h2⟩ := f.begins a (Nat.zero_le _) (by omega)
        refine ⟨th, ?_, h1, h2⟩
        simp only [f.len]
        rw [set_get_ne (by omega), List.getElem?_append, if_pos (by rw [f.len]; omega)]
        exact ht
    · simp only [hp]
      rw [← List.replicate_succ']

/-- the threads run their tasks and go to sleep one after the other -/
theorem fam_sleep {M n : Nat} {s : St} (hr : Reach M false s) (f : Fam n 0 s) (w : Nat) (hw : w ≤ n) :
    ∃ t, Reach M false t ∧ Fam n w t ∧ t.posters = s.posters := by
  induction w with
  | zero => exact ⟨s, hr, f, rfl⟩
  | succ w ih =>
    obtain ⟨t, ht, ft, hp⟩ := ih (by omega)
    obtain ⟨th, hth, hpc, hsl⟩ := ft.begins w (Nat.le_refl _) (by omega)
    have o := (oinv_reach ht).thr _ _ hth
    have hsig := (o.active (by rw [hpc]; exact id)).2
    have h1 := Reach.step ht (.run _ w th w hth hpc hsl)
    have g1 := set_get_eq (x := { th with pc := .cb }) hth
    have h2 := Reach.step h1 (.clear _ w _ g1 rfl)
    simp only [List.set_set] at h2
    have g2 := set_get_eq (x := { th with pc := .drain, slot := none }) hth
    have h3 := Reach.step h2 (.park _ w _ g2 rfl ft.pend)
    simp only [List.set_set] at h3
    have g3 := set_get_eq (x := { th with pc := .idle1, slot := none }) hth
    have h4 := Reach.step h3 (.mask _ w _ g3 rfl)
    simp only [List.set_set] at h4
    refine ⟨_, h4, ⟨ft.count, ft.pend, by simp [ft.len], ft.ok, fun a h => ?_, fun a h1 h2 => ?_⟩, hp⟩
    · by_cases e : a = w
      · subst e; exact ⟨_, set_get_eq hth, rfl, hsig⟩
      · obtain ⟨th', h1, h2, h3⟩ := ft.waits a (by omega)
        exact ⟨th', by simp only; rw [set_get_ne (by omega)]; exact h1, h2, h3⟩
    · obtain ⟨th', h3, h4, h5⟩ := ft.begins a (by omega) h2
      exact ⟨th', by simp only; rw [set_get_ne (by omega)]; exact h3, h4, h5⟩

/-- The pending queue: a caller that finds every thread busy and the limit reached puts its task into the queue; if the threads have looked into the queue and gone to sleep
before that, nobody wakes them.  The call has returned `S_OK`, the whole pool sleeps, and the task waits for the next call – for every limit, the 500 of the code too. -/
theorem C88_stuck_fails (M : Nat) : ∃ s, Reach M false s ∧ s.crashed = false ∧ s.posters[M]? = some (.done true) ∧ s.pending = [M] ∧ M ∉ s.ran ∧
    s.threads.length = M ∧ Quiet M false s := by
  obtain ⟨s, hr, f, hi, hp⟩ := fam_create M M (Nat.le_refl _)
  have hlen : s.posters.length = M := by rw [hp]; simp
  have q : ∀ p, (s.posters ++ [p])[M]? = some p := fun p => by rw [List.getElem?_append]; simp [hlen]
  have qs : ∀ p p' : PPc, (s.posters ++ [p]).set M p' = s.posters ++ [p'] := fun p p' => by rw [List.set_append]; simp [hlen]
  have h1 := Reach.step hr (.call _)
  have h2 := Reach.step h1 (.popNull _ M (q _) hi)
  simp only [qs] at h2
  have h3 := Reach.step h2 (.count _ M (q _))
  simp only [qs] at h3
  have h4 := Reach.step h3 (.full _ M s.count (q _) (by rw [f.count]; exact Nat.le_refl _))
  simp only [qs] at h4
  obtain ⟨t, ht, ft, hpt⟩ := fam_sleep h4 (n := M) ⟨f.count, f.pend, f.len, f.ok, f.waits, f.begins⟩ M (Nat.le_refl _)
  simp only at hpt
  have h5 := Reach.step ht (.push _ M (by rw [hpt]; exact q _))
  rw [hpt] at h5
  simp only [qs] at h5
  have hran : M ∉ t.ran := by
    intro hm
    have hpl := placed_reach ht M
    have he : expAt t M = 0 := by simp [expAt, hpt, q, expect]
    have := List.count_pos_iff.2 hm
    unfold placed at hpl
    omega
  refine ⟨_, h5, ft.ok, q _, by simp [ft.pend], hran, ft.len, ?_⟩
  have hdone : ∀ (j : Nat) p, (s.posters ++ [PPc.done true])[j]? = some p → p = .done true := by
    intro j p h
    rw [List.getElem?_append] at h
    split at h
    · rw [hp, List.getElem?_replicate] at h
      split at h
      · injection h with h; exact h.symm
      · cases h
    · cases hh : j - s.posters.length with
      | zero => rw [hh] at h; simp at h; exact h.symm
      | succ n => rw [hh] at h; simp at h
  have hwait : ∀ (a : Nat) th, t.threads[a]? = some th → th.pc = .wait ∧ th.sig = false := by
    intro a th h
    have hlt : a < M := by
      refine Classical.byContradiction fun hn => ?_
      rw [List.getElem?_eq_none (by rw [ft.len]; omega)] at h
      cases h
    obtain ⟨th', h1, h2⟩ := ft.waits a hlt
    rw [h] at h1
    injection h1 with h1
    rw [h1]
    exact h2
  intro u hu
  cases hu with
  | popNull _ j hp hi => have := hdone _ _ hp; cases this
  | popHead _ j a hp hi hm => have := hdone _ _ hp; cases this
  | popRead _ j a hp => have := hdone _ _ hp; cases this
  | popCas _ j a n hp hi => have := hdone _ _ hp; cases this
  | popFail _ j a n b hp hi hb => have := hdone _ _ hp; cases this
  | popFailNull _ j a n hp hi => have := hdone _ _ hp; cases this
  | hand _ j a th hp ht => have := hdone _ _ hp; cases this
  | kill _ j a th hp ht hm hh => have := hdone _ _ hp; cases this
  | killed _ j a th hp ht hm => have := hdone _ _ hp; cases this
  | count _ j hp => have := hdone _ _ hp; cases this
  | full _ j c hp hc => have := hdone _ _ hp; cases this
  | push _ j hp => have := hdone _ _ hp; cases this
  | pushFail _ j hp => have := hdone _ _ hp; cases this
  | cas _ j c hp hc hn => have := hdone _ _ hp; cases this
  | casFail _ j c hp hc hn => have := hdone _ _ hp; cases this
  | allocFail _ j hp => have := hdone _ _ hp; cases this
  | create _ j hp => have := hdone _ _ hp; cases this
  | created _ j a th hp ht => have := hdone _ _ hp; cases this
  | run _ a th x ht hpc hs => have := (hwait _ _ ht).1; rw [hpc] at this; cases this
  | runNone _ a th ht hpc hs => have := (hwait _ _ ht).1; rw [hpc] at this; cases this
  | clear _ a th ht hpc => have := (hwait _ _ ht).1; rw [hpc] at this; cases this
  | take _ a th x rest ht hpc hs => have := (hwait _ _ ht).1; rw [hpc] at this; cases this
  | took _ a th ht hpc => have := (hwait _ _ ht).1; rw [hpc] at this; cases this
  | park _ a th ht hpc hs => have := (hwait _ _ ht).1; rw [hpc] at this; cases this
  | mask _ a th ht hpc => have := (hwait _ _ ht).1; rw [hpc] at this; cases this
  | wake _ a th ht hpc hs => have := (hwait _ _ ht).2; rw [hs] at this; cases this

/-! ## Example -/

/-- two calls, one thread: the second task is handed to the waiting thread, which runs both -/
theorem C88_example : ∃ s, Reach maxThreads false s ∧ s.crashed = false ∧ s.ran = [1, 0] ∧ s.threads.length = 1 ∧ s.posters = [.done true, .done true] := by
  have h0 : Reach maxThreads false init := .init
  have h1 : Reach maxThreads false ⟨0, [], [], [], [.pop], [], false⟩ :=
    .step h0 (.call _)
  have h2 : Reach maxThreads false ⟨0, [], [], [], [.count], [], false⟩ :=
    .step h1 (.popNull _ 0 rfl rfl)
  have h3 : Reach maxThreads false ⟨0, [], [], [], [.loop 0], [], false⟩ :=
    .step h2 (.count _ 0 rfl)
  have h4 : Reach maxThreads false ⟨1, [], [], [], [.alloc], [], false⟩ :=
    .step h3 (.cas _ 0 0 rfl (by decide) rfl)
  have h5 : Reach maxThreads false ⟨1, [], [], [⟨.run, some 0, false, false, false⟩], [.made 0], [], false⟩ :=
    .step h4 (.create _ 0 rfl)
  have h6 : Reach maxThreads false ⟨1, [], [], [⟨.run, some 0, false, false, true⟩], [.done true], [], false⟩ :=
    .step h5 (.created _ 0 0 { slot := some 0 } rfl rfl)
  have h7 : Reach maxThreads false ⟨1, [], [], [⟨.cb, some 0, false, false, true⟩], [.done true], [0], false⟩ :=
    .step h6 (.run _ 0 ⟨.run, some 0, false, false, true⟩ 0 rfl rfl rfl)
  have h8 : Reach maxThreads false ⟨1, [], [], [⟨.drain, none, false, false, true⟩], [.done true], [0], false⟩ :=
    .step h7 (.clear _ 0 ⟨.cb, some 0, false, false, true⟩ rfl rfl)
  have h9 : Reach maxThreads false ⟨1, [0], [], [⟨.idle1, none, false, false, true⟩], [.done true], [0], false⟩ :=
    .step h8 (.park _ 0 ⟨.drain, none, false, false, true⟩ rfl rfl rfl)
  have h10 : Reach maxThreads false ⟨1, [0], [], [⟨.wait, none, true, false, true⟩], [.done true], [0], false⟩ :=
    .step h9 (.mask _ 0 ⟨.idle1, none, false, false, true⟩ rfl rfl)
  have h11 : Reach maxThreads false ⟨1, [0], [], [⟨.wait, none, true, false, true⟩], [.done true, .pop], [0], false⟩ :=
    .step h10 (.call _)
  have h12 : Reach maxThreads false ⟨1, [0], [], [⟨.wait, none, true, false, true⟩], [.done true, .popAt 0], [0], false⟩ :=
    .step h11 (.popHead _ 1 0 rfl rfl (fun _ j p hp => by
      match j, hp with
      | 0, hp => cases hp; rfl
      | 1, hp => cases hp; rfl
      | j + 2, hp => cases hp))
  have h13 : Reach maxThreads false ⟨1, [0], [], [⟨.wait, none, true, false, true⟩], [.done true, .popNext 0 none], [0], false⟩ :=
    .step h12 (.popRead _ 1 0 rfl)
  have h14 : Reach maxThreads false ⟨1, [], [], [⟨.wait, none, true, false, true⟩], [.done true, .got 0], [0], false⟩ :=
    .step h13 (.popCas _ 1 0 none rfl rfl)
  have h15 : Reach maxThreads false ⟨1, [], [], [⟨.wait, some 1, true, false, true⟩], [.done true, .kill 0], [0], false⟩ :=
    .step h14 (.hand _ 1 0 ⟨.wait, none, true, false, true⟩ rfl rfl)
  have h16 : Reach maxThreads false ⟨1, [], [], [⟨.wait, some 1, true, true, true⟩], [.done true, .done true], [0], false⟩ :=
    .step h15 (.kill _ 1 0 ⟨.wait, some 1, true, false, true⟩ rfl rfl rfl rfl)
  have h17 : Reach maxThreads false ⟨1, [], [], [⟨.run, some 1, true, false, true⟩], [.done true, .done true], [0], false⟩ :=
    .step h16 (.wake _ 0 ⟨.wait, some 1, true, true, true⟩ rfl rfl rfl)
  have h18 : Reach maxThreads false ⟨1, [], [], [⟨.cb, some 1, true, false, true⟩], [.done true, .done true], [1, 0], false⟩ :=
    .step h17 (.run _ 0 ⟨.run, some 1, true, false, true⟩ 1 rfl rfl rfl)
  exact ⟨_, h18, rfl, rfl, rfl, rfl⟩

#print axioms C88_limit
#print axioms C88_once_partial
#print axioms C88_refused_partial
#print axioms C88_kept_partial
#print axioms C88_quiet_partial
#print axioms C88_all_run_partial
#print axioms C88_crash_fails
#print axioms C88_aba_fails
#print axioms C88_stuck_fails
#print axioms C88_example

end Verif.LinuxPool
