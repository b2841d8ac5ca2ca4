import Verif.WaitLoop.Model
import Verif.WaitMgr.Props
/-!
# Lemmas about the waits of a thread task runner
-/
namespace Verif.WaitLoop
open Verif.WaitMgr

theorem allowedRun_append {hd : Nat → Nat} : ∀ (es es' : List Ev) (s s' : St), AllowedRun hd s es → run hd s es = some s' → AllowedRun hd s' es' → AllowedRun hd s (es ++ es')
  | [], _, _, _, _, h2, h3 => by cases h2; exact h3
  | e :: es, es', s, s', h1, h2, h3 => by
    refine ⟨h1.1, fun t ht => ?_⟩
    simp only [run, ht] at h2
    exact allowedRun_append es es' t s' (h1.2 t ht) h2 h3

theorem run_append {hd : Nat → Nat} : ∀ (es es' : List Ev) (s s' : St), run hd s es = some s' → run hd s (es ++ es') = run hd s' es'
  | [], _, _, _, h => by cases h; rfl
  | e :: es, es', s, s', h => by
    simp only [run, List.cons_append] at h ⊢
    cases hs : step hd s e with
    | none => rw [hs] at h; cases h
    | some t => rw [hs] at h; exact run_append es es' t s' h

theorem reached_run {hd : Nat → Nat} {s s' : St} (h : Reached hd s) {es : List Ev} (ha : AllowedRun hd s es) (hr : run hd s es = some s') : Reached hd s' := by
  obtain ⟨es0, h1, h2⟩ := h
  exact ⟨es0 ++ es, allowedRun_append _ _ _ _ h1 h2 ha, by rw [run_append _ _ _ _ h2]; exact hr⟩

theorem reached_process {hd : Nat → Nat} {s : St} (h : Reached hd s) (i : Nat) : Reached hd (process s i) :=
  reached_run h (es := [.process i]) ⟨trivial, fun _ _ => trivial⟩ rfl

theorem reached_minimum {hd : Nat → Nat} {s : St} (h : Reached hd s) : Reached hd (minimum s).1 :=
  reached_run h (es := [.minimum]) ⟨trivial, fun _ _ => trivial⟩ rfl

theorem reached_removeAt {hd : Nat → Nat} {s : St} (h : Reached hd s) (i : Nat) (hg : get s i = none) : Reached hd (removeAt s i) := by
  have := reached_process h i
  unfold process at this
  split at this
  · rename_i hc; unfold removeAt; rw [if_pos hc]; exact h
  · rw [hg] at this; exact this

/-- the handlers obey the rule of C54 whenever they are called -/
def Obeys (hd : Nat → Nat) (react : React) : Prop := ∀ i w s, Reached hd s → AllowedRun hd s (react i w s)

theorem get_out {hd : Nat → Nat} {s : St} (h : Reached hd s) {i w : Nat} (hg : get s i = some w) : i < s.cnt := by
  by_cases hi : i < s.cnt
  · exact hi
  · have := (h.good.inv.core.out i (by omega)).2
    rw [(get_eq hg).1] at this; cases this

/-- what is known of a resolution at index `i` of state `s` -/
def At (s : St) (i code : Nat) (x : Out) : Prop :=
  i < s.cnt ∧ s.p i = some x.w ∧ (s.ws x.w).alive = true ∧ (s.ws x.w).status = .started ∧ x.code = code ∧ x.due = (s.ws x.w).timeout

theorem processR_ok {hd : Nat → Nat} {react : React} (hO : Obeys hd react) {s : St} (h : Reached hd s) {i c : Nat} {s' : St} {o : List Out}
    (hp : processR hd react s i c = some (s', o)) : Reached hd s' ∧ ∀ x ∈ o, At s i c x := by
  unfold processR at hp
  split at hp
  · cases hp; exact ⟨h, fun _ hx => by cases hx⟩
  · rename_i hi
    cases hg : get s i with
    | none => rw [hg] at hp; cases hp; exact ⟨reached_process h i, fun _ hx => by cases hx⟩
    | some w =>
      rw [hg] at hp; dsimp only at hp
      split at hp
      · rename_i hst
        split at hp
        · cases hp
        · rename_i s2 hr
          cases hp
          refine ⟨reached_run (reached_process h i) (hO _ _ _ (reached_process h i)) hr, fun x hx => ?_⟩
          simp only [List.mem_singleton] at hx
          subst hx
          obtain ⟨h1, h2⟩ := get_eq hg
          exact ⟨by omega, h1, h2, hst, rfl, rfl⟩
      · cases hp; exact ⟨reached_process h i, fun _ hx => by cases hx⟩

theorem at_hd {hd : Nat → Nat} {s : St} (h : Reached hd s) {i c : Nat} {x : Out} (ha : At s i c x) : hd x.w = s.h i ∧ s.h i ≠ 0 := by
  obtain ⟨w, h1, h2⟩ := h.good.inv.core.slot i ha.1
  rw [ha.2.1] at h1; cases h1
  exact ⟨h2, h.good.inv.core.nz i ha.1⟩

theorem timeoutR_ok {hd : Nat → Nat} {react : React} (hO : Obeys hd react) (now : Int) : ∀ (n : Nat) {s s' : St} {o : List Out}, Reached hd s →
    timeoutR hd react now s n = some (s', o) → Reached hd s' ∧ ∀ x ∈ o, hd x.w ≠ 0 ∧ x.code = kTimeout ∧ x.due < now + 10000
  | 0, s, s', o, h, hp => by cases hp; exact ⟨h, fun _ hx => by cases hx⟩
  | i + 1, s, s', o, h, hp => by
    simp only [timeoutR] at hp
    cases hg : get s i with
    | none => rw [hg] at hp; exact timeoutR_ok hO now i (reached_removeAt h i hg) hp
    | some w =>
      rw [hg] at hp; dsimp only at hp
      split at hp
      · exact timeoutR_ok hO now i h hp
      · rename_i hm
        split at hp
        · cases hp
        · rename_i s2 o2 h2
          obtain ⟨r2, a2⟩ := processR_ok hO h h2
          split at hp
          · cases hp
          · rename_i s3 o3 h3
            cases hp
            obtain ⟨r3, a3⟩ := timeoutR_ok hO now i r2 h3
            refine ⟨r3, fun x hx => ?_⟩
            rcases List.mem_append.1 hx with hx | hx
            · have ha := a2 x hx
              have e : x.w = w := by
                have h1 := (get_eq hg).1
                rw [ha.2.1] at h1; cases h1; rfl
              obtain ⟨b1, b2⟩ := at_hd h ha
              refine ⟨by rw [b1]; exact b2, ha.2.2.2.2.1, ?_⟩
              rw [ha.2.2.2.2.2, e]
              rw [ms_pos] at hm; omega
            · exact a3 x hx

theorem failedR_ok {hd : Nat → Nat} {react : React} (hO : Obeys hd react) (probe : Nat → Nat → Nat) (srv : Nat) : ∀ (n : Nat) {s s' : St} {o : List Out}, Reached hd s →
    failedR hd react probe srv s n = some (s', o) → Reached hd s' ∧ ∀ x ∈ o, hd x.w ≠ 0 ∧ x.code ≠ kTimeout ∧ ∃ i, probe i (hd x.w) = x.code
  | 0, s, s', o, h, hp => by cases hp; exact ⟨h, fun _ hx => by cases hx⟩
  | i + 1, s, s', o, h, hp => by
    simp only [failedR] at hp
    split at hp
    · split at hp
      · rename_i hne
        split at hp
        · cases hp
        · rename_i s2 o2 h2
          obtain ⟨r2, a2⟩ := processR_ok hO h h2
          split at hp
          · cases hp
          · rename_i s3 o3 h3
            cases hp
            obtain ⟨r3, a3⟩ := failedR_ok hO probe srv i r2 h3
            refine ⟨r3, fun x hx => ?_⟩
            rcases List.mem_append.1 hx with hx | hx
            · have ha := a2 x hx
              obtain ⟨b1, b2⟩ := at_hd h ha
              have hs : single probe i (s.h i) = probe i (hd x.w) := by unfold single; rw [if_neg b2, b1]
              refine ⟨by rw [b1]; exact b2, by rw [ha.2.2.2.2.1]; exact hne, i, ?_⟩
              rw [ha.2.2.2.2.1, hs]
            · exact a3 x hx
      · exact failedR_ok hO probe srv i h hp
    · exact failedR_ok hO probe srv i h hp

/-! ## Handlers that leave the manager alone -/

/-- the handlers do nothing to the manager -/
def quiet : React := fun _ _ _ => []

theorem quiet_obeys (hd : Nat → Nat) : Obeys hd quiet := fun _ _ _ _ => trivial

theorem processR_quiet {hd : Nat → Nat} {s : St} {i : Nat} (hi : i < s.cnt) (c : Nat) :
    ∃ o, processR hd quiet s i c = some (process s i, o) ∧ ∀ x, x ∈ o ↔ At s i c x := by
  unfold processR
  rw [if_neg (by omega)]
  cases hg : get s i with
  | none =>
    refine ⟨[], rfl, fun x => ⟨fun h => (by cases h), fun h => ?_⟩⟩
    have := get_none hg h.2.1
    rw [h.2.2.1] at this; cases this
  | some w =>
    obtain ⟨h1, h2⟩ := get_eq hg
    dsimp only
    split
    · rename_i hst
      refine ⟨_, rfl, fun x => ?_⟩
      rw [List.mem_singleton]
      constructor
      · rintro rfl; exact ⟨hi, h1, h2, hst, rfl, rfl⟩
      · rintro ⟨_, a2, _, _, a5, a6⟩
        rw [h1] at a2
        have e : w = x.w := by cases a2; rfl
        cases x; dsimp only at *; subst e; rw [a5, a6]
    · rename_i hst
      refine ⟨[], rfl, fun x => ⟨fun h => (by cases h), fun h => ?_⟩⟩
      rw [h.2.1] at h1
      have e : x.w = w := by cases h1; rfl
      exact absurd (e ▸ h.2.2.2.1) hst

theorem p_inj {hd : Nat → Nat} {s : St} (g : Good hd s) {i j v : Nat} (hi : i < s.cnt) (hj : j < s.cnt) (h1 : s.p i = some v) (h2 : s.p j = some v) : i = j := by
  obtain ⟨a, b1, b2⟩ := g.inv.core.slot i hi
  obtain ⟨a', b1', b2'⟩ := g.inv.core.slot j hj
  rw [h1] at b1; cases b1
  rw [h2] at b1'; cases b1'
  exact g.inv.core.inj i hi j hj (by rw [← b2, ← b2'])

theorem process_idx {hd : Nat → Nat} {s : St} (g : Good hd s) {n : Nat} (hn : n < s.cnt) (x v : Nat) (P : Nat → Prop) :
    (∃ j < (process s n).cnt, (process s n).h j = x ∧ (process s n).p j = some v ∧ (j < n → P j)) ↔
    ∃ j < s.cnt, s.h j = x ∧ s.p j = some v ∧ j ≠ n ∧ (j < n → P j) := by
  obtain ⟨g', hp, hc, hl, _, _⟩ := process_good g hn
  constructor
  · rintro ⟨j, hj, h1, h2, h3⟩
    by_cases hjn : j < n
    · obtain ⟨e1, e2⟩ := hl j hjn
      exact ⟨j, by omega, by rw [← e1]; exact h1, by rw [← e2]; exact h2, by omega, h3⟩
    · obtain ⟨⟨k, hk, k1, k2⟩, hx⟩ := (hp x v).1 ⟨j, hj, h1, h2⟩
      refine ⟨k, hk, k1, k2, fun e => hx (by rw [← k1, e]), fun hkn => ?_⟩
      have := g'.inv.core.inj k (by omega) j hj (by rw [(hl k hkn).1, k1, h1])
      omega
  · rintro ⟨k, hk, k1, k2, k3, k4⟩
    by_cases hkn : k < n
    · obtain ⟨e1, e2⟩ := hl k hkn
      exact ⟨k, by omega, by rw [e1]; exact k1, by rw [e2]; exact k2, k4⟩
    · obtain ⟨j, hj, h1, h2⟩ := (hp x v).2 ⟨⟨k, hk, k1, k2⟩, fun e => k3 (g.inv.core.inj k hk n hn (by rw [k1, e]))⟩
      refine ⟨j, hj, h1, h2, fun hjn => ?_⟩
      have := g.inv.core.inj j (by omega) k hk (by rw [← (hl j hjn).1, h1, k1])
      omega

/-- a resolution below the index that was processed is the same in the new state -/
theorem at_process {hd : Nat → Nat} {s : St} (g : Good hd s) {n : Nat} (hn : n < s.cnt) {j : Nat} (hj : j < n) (c : Nat) (x : Out) :
    At (process s n) j c x ↔ At s j c x := by
  obtain ⟨g', hp, hc, hl, hw, _⟩ := process_good g hn
  obtain ⟨e1, e2⟩ := hl j hj
  unfold At
  rw [e2]
  have hne : s.p j = some x.w → s.p n ≠ some x.w := fun h1 h2 => by
    have := p_inj g (by omega) hn h1 h2; omega
  obtain ⟨w1, w2, w3⟩ := hw x.w
  rw [w1, w2]
  constructor
  · rintro ⟨a1, a2, a3, a4, a5, a6⟩
    exact ⟨by omega, a2, a3, by rw [← w3 (hne a2)]; exact a4, a5, a6⟩
  · rintro ⟨a1, a2, a3, a4, a5, a6⟩
    exact ⟨by omega, a2, a3, by rw [w3 (hne a2)]; exact a4, a5, a6⟩

theorem process_none {s : St} {i : Nat} (hg : get s i = none) : process s i = removeAt s i := by
  unfold process
  split
  · rename_i h; unfold removeAt; rw [if_pos h]
  · rw [hg]

theorem failedR_quiet {hd : Nat → Nat} (probe : Nat → Nat → Nat) (srv : Nat) : ∀ (n : Nat) {s : St}, Reached hd s → n ≤ s.cnt → n ≤ srv →
    ∃ s' o, failedR hd quiet probe srv s n = some (s', o) ∧ Reached hd s' ∧
      (∀ x v, Paired s' x v ↔ ∃ j < s.cnt, s.h j = x ∧ s.p j = some v ∧ (j < n → probe j x = kTimeout)) ∧
      (∀ x, x ∈ o ↔ ∃ j < n, At s j (probe j (s.h j)) x ∧ x.code ≠ kTimeout)
  | 0, s, h, _, _ => ⟨s, [], rfl, h, fun x v => ⟨fun ⟨j, a, b, d⟩ => ⟨j, a, b, d, fun h => by omega⟩, fun ⟨j, a, b, d, _⟩ => ⟨j, a, b, d⟩⟩,
      fun x => ⟨fun hx => (by cases hx), fun ⟨j, hj, _⟩ => by omega⟩⟩
  | i + 1, s, h, hn, hs => by
    have hi : i < s.cnt := by omega
    have hz := h.good.inv.core.nz i hi
    have hsg : single probe i (s.h i) = probe i (s.h i) := by unfold single; rw [if_neg hz]
    simp only [failedR]
    rw [if_pos (show i ≠ srv by omega), hsg]
    by_cases hc : probe i (s.h i) ≠ kTimeout
    · rw [if_pos hc]
      obtain ⟨o, h1, h2⟩ := processR_quiet (hd := hd) hi (probe i (s.h i))
      obtain ⟨_, _, hcnt, hl, _, _⟩ := process_good h.good hi
      obtain ⟨s', o', h3, h4, h5, h6⟩ := failedR_quiet probe srv i (reached_process h i) (by omega) (by omega)
      rw [h1]; dsimp only; rw [h3]
      refine ⟨s', _, rfl, h4, fun x v => ?_, fun x => ?_⟩
      · rw [h5, process_idx h.good hi x v (fun j => probe j x = kTimeout)]
        constructor
        · rintro ⟨j, a1, a2, a3, a4, a5⟩
          exact ⟨j, a1, a2, a3, fun hj => a5 (by omega)⟩
        · rintro ⟨j, a1, a2, a3, a4⟩
          refine ⟨j, a1, a2, a3, fun e => ?_, fun hj => a4 (by omega)⟩
          subst e; exact hc (by rw [a2]; exact a4 (by omega))
      · rw [List.mem_append, h2, h6]
        constructor
        · rintro (ha | ⟨j, hj, ha, hcd⟩)
          · exact ⟨i, by omega, ha, by rw [ha.2.2.2.2.1]; exact hc⟩
          · rw [(hl j hj).1] at ha
            exact ⟨j, by omega, (at_process h.good hi hj _ _).1 ha, hcd⟩
        · rintro ⟨j, hj, ha, hcd⟩
          by_cases e : j = i
          · subst e; exact .inl ha
          · refine .inr ⟨j, by omega, ?_, hcd⟩
            rw [(hl j (by omega)).1]
            exact (at_process h.good hi (by omega) _ _).2 ha
    · rw [if_neg hc]
      have hc : probe i (s.h i) = kTimeout := by
        by_cases e : probe i (s.h i) = kTimeout
        · exact e
        · exact absurd e hc
      obtain ⟨s', o', h3, h4, h5, h6⟩ := failedR_quiet probe srv i h (by omega) (by omega)
      refine ⟨s', o', h3, h4, fun x v => ?_, fun x => ?_⟩
      · rw [h5]
        constructor
        · rintro ⟨j, a1, a2, a3, a4⟩
          refine ⟨j, a1, a2, a3, fun hj => ?_⟩
          by_cases e : j = i
          · subst e; rw [← a2]; exact hc
          · exact a4 (by omega)
        · rintro ⟨j, a1, a2, a3, a4⟩
          exact ⟨j, a1, a2, a3, fun hj => a4 (by omega)⟩
      · rw [h6]
        constructor
        · rintro ⟨j, hj, ha⟩; exact ⟨j, by omega, ha⟩
        · rintro ⟨j, hj, ha, hcd⟩
          refine ⟨j, ?_, ha, hcd⟩
          by_cases e : j = i
          · subst e; exact absurd (by rw [ha.2.2.2.2.1]; exact hc) hcd
          · omega

theorem timeoutR_quiet {hd : Nat → Nat} (now : Int) : ∀ (n : Nat) {s : St}, Reached hd s → n ≤ s.cnt →
    ∃ o, timeoutR hd quiet now s n = some (timeoutLoop now s n, o) ∧
      ∀ x, x ∈ o ↔ ∃ j < n, At s j kTimeout x ∧ x.due < now + 10000
  | 0, s, _, _ => ⟨[], rfl, fun x => ⟨fun hx => (by cases hx), fun ⟨j, hj, _⟩ => by omega⟩⟩
  | i + 1, s, h, hn => by
    have hi : i < s.cnt := by omega
    obtain ⟨_, _, hcnt, hl, _, _⟩ := process_good h.good hi
    simp only [timeoutR, timeoutLoop]
    cases hg : get s i with
    | none =>
      dsimp only
      have hp := process_none hg
      obtain ⟨o, h1, h2⟩ := timeoutR_quiet now i (reached_process h i) (by omega)
      rw [hp] at h1
      refine ⟨o, h1, fun x => ?_⟩
      rw [h2]
      constructor
      · rintro ⟨j, hj, ha, hb⟩; exact ⟨j, by omega, (at_process h.good hi hj _ _).1 ha, hb⟩
      · rintro ⟨j, hj, ha, hb⟩
        have : j ≠ i := fun e => by
          subst e
          have := get_none hg ha.2.1
          rw [ha.2.2.1] at this; cases this
        exact ⟨j, by omega, (at_process h.good hi (by omega) _ _).2 ha, hb⟩
    | some w =>
      obtain ⟨g1, g2⟩ := get_eq hg
      dsimp only
      split
      · rename_i hm
        rw [ms_pos] at hm
        obtain ⟨o, h1, h2⟩ := timeoutR_quiet now i h (by omega)
        refine ⟨o, h1, fun x => ?_⟩
        rw [h2]
        constructor
        · rintro ⟨j, hj, ha⟩; exact ⟨j, by omega, ha⟩
        · rintro ⟨j, hj, ha, hb⟩
          have : j ≠ i := fun e => by
            subst e
            have e2 : x.w = w := by have := ha.2.1; rw [g1] at this; cases this; rfl
            have := ha.2.2.2.2.2
            rw [e2] at this; omega
          exact ⟨j, by omega, ha, hb⟩
      · rename_i hm
        rw [ms_pos] at hm
        obtain ⟨o, h1, h2⟩ := processR_quiet (hd := hd) hi kTimeout
        obtain ⟨o', h3, h4⟩ := timeoutR_quiet now i (reached_process h i) (by omega)
        rw [h1]; dsimp only; rw [h3]
        refine ⟨_, rfl, fun x => ?_⟩
        rw [List.mem_append, h2, h4]
        constructor
        · rintro (ha | ⟨j, hj, ha, hb⟩)
          · refine ⟨i, by omega, ha, ?_⟩
            have e2 : x.w = w := by have := ha.2.1; rw [g1] at this; cases this; rfl
            have := ha.2.2.2.2.2
            rw [e2] at this; omega
          · exact ⟨j, by omega, (at_process h.good hi hj _ _).1 ha, hb⟩
        · rintro ⟨j, hj, ha, hb⟩
          by_cases e : j = i
          · subst e; exact .inl ha
          · exact .inr ⟨j, by omega, (at_process h.good hi (by omega) _ _).2 ha, hb⟩

/-! ## `GetMinimumWakeupTickCount` changes no wait -/

theorem removeAt_same (s : St) (i v : Nat) : ((removeAt s i).ws v).alive = (s.ws v).alive ∧ ((removeAt s i).ws v).status = (s.ws v).status ∧
    ((removeAt s i).ws v).timeout = (s.ws v).timeout := by
  by_cases hi : i < s.cnt
  · rw [(removeAt_ws hi).1]; exact ⟨wsAt_alive .., wsAt_status .., wsAt_timeout ..⟩
  · unfold removeAt; rw [if_pos (by omega)]; exact ⟨rfl, rfl, rfl⟩

theorem minLoop_same : ∀ (n : Nat) (s : St) (m : Option Int) (v : Nat), ((minLoop s m n).1.ws v).alive = (s.ws v).alive ∧ ((minLoop s m n).1.ws v).status = (s.ws v).status ∧
    ((minLoop s m n).1.ws v).timeout = (s.ws v).timeout
  | 0, _, _, _ => ⟨rfl, rfl, rfl⟩
  | i + 1, s, m, v => by
    have hr := removeAt_same s i v
    have ih := minLoop_same i (removeAt s i) m v
    simp only [minLoop]
    split
    · exact ⟨ih.1.trans hr.1, ih.2.1.trans hr.2.1, ih.2.2.trans hr.2.2⟩
    · split
      · exact ⟨ih.1.trans hr.1, ih.2.1.trans hr.2.1, ih.2.2.trans hr.2.2⟩
      · exact minLoop_same i s _ v

theorem minimum_same (s : St) (v : Nat) : ((minimum s).1.ws v).alive = (s.ws v).alive ∧ ((minimum s).1.ws v).status = (s.ws v).status ∧
    ((minimum s).1.ws v).timeout = (s.ws v).timeout := minLoop_same _ _ _ _

theorem cnt63 {hd : Nat → Nat} {s : St} (h : Reached hd s) : s.cnt ≤ 63 := h.good.inv.core.cap

end Verif.WaitLoop
