import Verif.When.AnyLemmas

namespace Verif.When.Any
open Verif.Common

theorem wake_mk {s s' : St} (hI : Inv s) {i : Nat} {p q : PC} (h : s.threads[i]? = some p) (hs : s'.threads = s.threads.set i q)
    (h1 : ∀ j, p ≠ .swap j) (h2 : ∀ j, q ≠ .addPush j)
    (hb : ∀ (j : Nat) (o' : Op), s'.ops[j]? = some o' → o'.done = true → ∃ o, s.ops[j]? = some o ∧ o.done = true ∧ (o'.listed = true → o.listed = true ∨ p = .addPush j)) :
    ∀ (j : Nat) (o : Op), s'.ops[j]? = some o → o.done = true → (o.listed = true ∨ ∃ i : Nat, s'.threads[i]? = some (.addPush j)) →
      ∃ i : Nat, s'.threads[i]? = some (.swap j) := by
  intro j o' ho' hd hw
  obtain ⟨o, ho, hdo, hl⟩ := hb j o' ho' hd
  have : ∃ i : Nat, s.threads[i]? = some (.swap j) := by
    refine hI.wake j o ho hdo ?_
    rcases hw with hw | ⟨i', hw⟩
    · rcases hl hw with e | e
      · exact .inl e
      · exact .inr ⟨i, by rw [h, e]⟩
    · rw [hs] at hw; exact .inr ⟨i', back (h2 j) hw⟩
  obtain ⟨i', hi'⟩ := this
  exact ⟨i', by rw [hs]; exact stay h (h1 j) hi'⟩

theorem prog_mk {s s' : St} (hI : Inv s) {i : Nat} {p q : PC} (h : s.threads[i]? = some p) (hs : s'.threads = s.threads.set i q)
    (h1 : ∀ j, p ≠ .invoke j) (h2 : ∀ j, p ≠ .called j) (hp : s'.prog = s.prog) (hr : s'.resolves = [] → s.resolves = [])
    (hl : ∀ (j : Nat) (o : Op), s.ops[j]? = some o → o.listed = true → ∃ o', s'.ops[j]? = some o' ∧ o'.listed = true) :
    s'.resolves = [] → ∀ j < s'.prog, (∃ o, s'.ops[j]? = some o ∧ o.listed = true) ∨ ∃ i : Nat, s'.threads[i]? = some (.invoke j) ∨ s'.threads[i]? = some (.called j) := by
  intro hr' j hj
  rw [hp] at hj
  rcases hI.prog (hr hr') j hj with ⟨o, ho, e⟩ | ⟨i', e | e⟩
  · exact .inl (hl j o ho e)
  · exact .inr ⟨i', .inl (by rw [hs]; exact stay h (h1 j) e)⟩
  · exact .inr ⟨i', .inr (by rw [hs]; exact stay h (h2 j) e)⟩

theorem res_mk {s s' : St} (hI : Inv s) (hm : Mono s.ops s'.ops)
    (hr : ∀ j ∈ s'.resolves, j ∈ s.resolves ∨ ∃ o, s'.ops[j]? = some o ∧ (o.null = true ∨ o.done = true)) :
    ∀ j ∈ s'.resolves, ∃ o, s'.ops[j]? = some o ∧ (o.null = true ∨ o.done = true) := by
  intro j hj
  rcases hr j hj with h | h
  · obtain ⟨o, ho, hd⟩ := hI.res j h
    obtain ⟨o', e, m⟩ := hm.2 j o ho
    exact ⟨o', e, hd.imp (fun x => by rw [m.null, x]) m.done⟩
  · exact h

theorem ref_pos {s : St} (hI : Inv s) (h : s.creating = true ∨ (∃ (i : Nat) (p : PC), s.threads[i]? = some p ∧ held p = 1) ∨ (∃ (j : Nat) (o : Op), s.ops[j]? = some o ∧ o.hold = true)) :
    s.ref ≠ 0 := by
  have := hI.ref
  rcases h with h | ⟨i, p, h, e⟩ | ⟨j, o, h, e⟩
  · have := hI.user h; omega
  · have := le_sumBy held _ _ _ h; omega
  · have := le_sumBy hold _ _ _ h
    simp [hold, b2n, e] at this; omega

theorem own_cons {own : Option (Option Nat)} {l : List Nat} {k : Nat} (h : ∀ j, own = some (some j) → j ∈ l) :
    ∀ j, (if own = none then some (some k) else own) = some (some j) → j ∈ k :: l := by
  intro j e
  split at e
  · cases e; simp
  · exact List.mem_cons_of_mem _ (h j e)

theorem own_ne {own : Option (Option Nat)} {k : Nat} : (if own = none then some (some k) else own) ≠ none := by
  split
  · simp
  · assumption

theorem inv_step {s s'} (hI : Inv s) (hs : Step s s') : Inv s' := by
  have hcl := hI.cl
  have hnew := hI.new
  have hfin := hI.fin
  have hone := hI.one
  have href := hI.ref
  have hown := hI.own
  have hown' := hI.own'
  cases hs with
  | win i j o h ho hn hd =>
    have c1 := claim_set (.swap j) h
    have c2 := held_set (.swap j) h
    have c3 := ctok_set (.swap j) h
    have c4 := hold_set { o with done := true } ho
    simp only [claim, held, ctok] at c1 c2 c3
    have e4 : hold { o with done := true } = hold o := rfl
    have hm : Mono s.ops (s.ops.set j { o with done := true }) := Mono.set ho ⟨rfl, fun _ => rfl⟩
    have k : Keep s { s with ops := s.ops.set j { o with done := true }, threads := s.threads.set i (.swap j) } := by
      refine ⟨hm, rfl, rfl, rfl, id, ?_⟩
      grind
    have hi := set_get (x := PC.swap j) h
    have hj := set_get (x := { o with done := true }) ho
    refine ⟨T_any hI k rfl ⟨_, hj, hn, rfl⟩, by grind, by grind, ?_, hI.freed, hI.user, hI.ub, by grind, ?_, ?_, by grind, hI.own, hI.own', res_mk hI hm fun j h => .inl h⟩
    · show s.ref = s.user + sumBy hold (s.ops.set j _) + sumBy held (s.threads.set i _); omega
    · intro j' o' ho' hd' hw
      by_cases e : j = j'
      · subst e; exact ⟨i, hi⟩
      · have ho2 : s.ops[j']? = some o' := by rwa [List.getElem?_set_ne e] at ho'
        obtain ⟨i', hi'⟩ := hI.wake j' o' ho2 hd' (hw.imp id fun ⟨i', x⟩ => ⟨i', back (by simp) x⟩)
        exact ⟨i', stay h (by simp) hi'⟩
    · refine prog_mk hI h rfl (by simp) (by simp) rfl id ?_
      intro j' a ha hl
      by_cases e : j = j'
      · subst e; rw [ho] at ha; cases ha; exact ⟨_, hj, hl⟩
      · exact ⟨a, by show (s.ops.set j _)[j']? = _; rw [List.getElem?_set_ne e, ha], hl⟩
  | swap i j o h ho hl =>
    obtain ⟨o1, t1, t2, t3⟩ := hI.T i _ h
    rw [ho] at t1; cases t1
    have hm : Mono s.ops (s.ops.set j { o with listed := false }) := Mono.set ho ⟨rfl, id⟩
    have k : Keep s { s with ops := s.ops.set j { o with listed := false }, threads := s.threads.set i (if o.listed then .invoke j else .idle) } := by
      refine ⟨hm, rfl, rfl, rfl, id, ?_⟩
      grind
    have c1 := claim_set (if o.listed then .invoke j else .idle) h
    have c2 := held_set (if o.listed then .invoke j else .idle) h
    have c3 := ctok_set (if o.listed then .invoke j else .idle) h
    have c4 := hold_set { o with listed := false } ho
    have e4 : hold { o with listed := false } = hold o := rfl
    have hi := set_get (x := if o.listed then PC.invoke j else PC.idle) h
    have hj := set_get (x := { o with listed := false }) ho
    have e1 : ∀ j', claim j' (if o.listed then PC.invoke j else PC.idle) = if j = j' then b2n o.listed else 0 := by
      intro j'; unfold b2n; cases o.listed <;> simp [claim]
    have e2 : held (if o.listed then PC.invoke j else PC.idle) = 0 := by split <;> rfl
    have e3 : ctok (if o.listed then PC.invoke j else PC.idle) = 0 := by split <;> rfl
    simp only [e1, e2, e3] at c1 c2 c3
    simp only [claim, held, ctok] at c1 c2 c3
    refine ⟨T_any hI k rfl ?_, by grind, ?_, ?_, hI.freed, hI.user, hI.ub, by grind, ?_, ?_, by grind, hI.own, hI.own', res_mk hI hm fun j h => .inl h⟩
    · cases hls : o.listed with
      | false => trivial
      | true =>
        refine ⟨?_, _, hj, t3⟩
        show j < s.prog
        refine Classical.byContradiction fun hge => ?_
        have := hnew j o ho (by omega)
        rw [hls] at this; cases this
    · intro j' a ha
      show b2n a.hold = b2n a.listed + sumBy (claim j') (s.threads.set i _) + b2n (s.refused == some j')
      have := c1 j'
      rcases get_set ha with ⟨rfl, rfl⟩ | ⟨e, ha'⟩
      · have := hcl j o ho
        simp only [if_pos] at *
        show b2n o.hold = b2n false + _ + _
        simp only [show b2n false = 0 from rfl]
        omega
      · have := hcl j' a ha'
        rw [if_neg e] at *
        omega
    · show s.ref = s.user + sumBy hold (s.ops.set j _) + sumBy held (s.threads.set i _); omega
    · intro j' o' ho' hd' hw
      have hw' : o'.listed = true ∨ ∃ i' : Nat, s.threads[i']? = some (.addPush j') :=
        hw.imp id fun ⟨i', x⟩ => ⟨i', back (by split <;> simp) x⟩
      by_cases e : j = j'
      · subst e
        rw [show (s.ops.set j { o with listed := false })[j]? = some o' from ho'] at hj
        cases hj
        rcases hw' with hw' | ⟨i', hw'⟩
        · cases hw'
        · obtain ⟨_, _, _, o2, g1, _, g3⟩ := hI.T i' _ hw'
          rw [ho] at g1; cases g1
          rw [hl] at g3; cases g3
      · have ho2 : s.ops[j']? = some o' := by rwa [List.getElem?_set_ne e] at ho'
        obtain ⟨i', hi'⟩ := hI.wake j' o' ho2 hd' hw'
        exact ⟨i', stay h (by simp [e]) hi'⟩
    · intro hr j' hj'
      rcases hI.prog hr j' hj' with ⟨a, ha, e⟩ | ⟨i', e | e⟩
      · by_cases ej : j = j'
        · subst ej; rw [ho] at ha; cases ha
          right; refine ⟨i, .inl ?_⟩
          show (s.threads.set i _)[i]? = _
          rw [hi, e]; rfl
        · exact .inl ⟨a, by show (s.ops.set j _)[j']? = _; rw [List.getElem?_set_ne ej, ha], e⟩
      · exact .inr ⟨i', .inl (stay h (by simp) e)⟩
      · exact .inr ⟨i', .inr (stay h (by simp) e)⟩
  | invoke i j o h ho =>
    obtain ⟨t1, o1, t2, t3⟩ := hI.T i _ h
    rw [ho] at t2; cases t2
    have hm : Mono s.ops (s.ops.set j { o with hold := false }) := Mono.set ho ⟨rfl, id⟩
    have k : Keep s { s with ops := s.ops.set j { o with hold := false }, ub := s.ub || !o.hold, threads := s.threads.set i (.called j) } := by
      refine ⟨hm, rfl, rfl, rfl, id, ?_⟩
      grind
    have c1 := claim_set (.called j) h
    have c2 := held_set (.called j) h
    have c3 := ctok_set (.called j) h
    have c4 := hold_set { o with hold := false } ho
    have e4 : hold { o with hold := false } = 0 := rfl
    have hi := set_get (x := PC.called j) h
    have hj := set_get (x := { o with hold := false }) ho
    simp only [claim, held, ctok] at c1 c2 c3
    have h1 := hcl j o ho
    have h2 := le_sumBy (claim j) _ _ _ h
    simp only [claim, if_pos] at h2
    have hh : o.hold = true := by
      cases e : o.hold with
      | true => rfl
      | false => rw [e] at h1; simp [b2n] at h1; omega
    have hho : hold o = 1 := by simp [hold, hh, b2n]
    have hb1 : b2n o.hold = 1 := by rw [hh]; rfl
    refine ⟨T_any hI k rfl ⟨_, hj, t3⟩, by grind, ?_, ?_, hI.freed, hI.user, ?_, by grind, ?_, ?_, by grind, hI.own, hI.own', res_mk hI hm fun j h => .inl h⟩
    · intro j' a ha
      show b2n a.hold = b2n a.listed + sumBy (claim j') (s.threads.set i _) + b2n (s.refused == some j')
      have := c1 j'
      rcases get_set ha with ⟨rfl, rfl⟩ | ⟨e, ha'⟩
      · simp only [if_pos] at this
        show b2n false = b2n o.listed + _ + _
        simp only [show b2n false = 0 from rfl]
        omega
      · have := hcl j' a ha'
        rw [if_neg e] at *
        omega
    · show s.ref = s.user + sumBy hold (s.ops.set j _) + sumBy held (s.threads.set i _); omega
    · show (s.ub || !o.hold) = false
      rw [hI.ub, hh]; rfl
    · exact wake_mk hI h rfl (by simp) (by simp) (by grind)
    · intro hr j' hj'
      rcases hI.prog hr j' hj' with ⟨a, ha, e⟩ | ⟨i', e | e⟩
      · by_cases ej : j = j'
        · subst ej; rw [ho] at ha; cases ha
          exact .inl ⟨_, hj, e⟩
        · exact .inl ⟨a, by show (s.ops.set j _)[j']? = _; rw [List.getElem?_set_ne ej, ha], e⟩
      · by_cases ei : i = i'
        · subst ei; rw [h] at e; cases e
          exact .inr ⟨i, .inr hi⟩
        · exact .inr ⟨i', .inl (by show (s.threads.set i _)[i']? = _; rw [List.getElem?_set_ne ei, e])⟩
      · exact .inr ⟨i', .inr (stay h (by simp) e)⟩
  | called i j h =>
    obtain ⟨o, t1, t2⟩ := hI.T i _ h
    have c1 := claim_set .release h
    have c2 := held_set .release h
    have c3 := ctok_set .release h
    simp only [claim, held, ctok] at c1 c2 c3
    have k : Keep s { s with own := if s.own = none then some (some j) else s.own, resolves := j :: s.resolves, threads := s.threads.set i .release } :=
      ⟨.refl _, rfl, rfl, rfl, fun _ => by simp, by grind⟩
    refine ⟨T_any hI k rfl trivial, by grind, by grind, ?_, hI.freed, hI.user, hI.ub, hnew, ?_, ?_, ?_, own_cons hown, fun _ => own_ne, res_mk hI (.refl _) ?_⟩
    · show s.ref = s.user + sumBy hold s.ops + sumBy held (s.threads.set i _); omega
    · exact wake_mk hI h rfl (by simp) (by simp) (by grind)
    · intro hr; cases hr
    · intro _ hr; cases hr
    · intro j' hj'
      rcases List.mem_cons.1 hj' with rfl | hj'
      · exact .inr ⟨o, t1, .inr t2⟩
      · exact .inl hj'
  | release i h =>
    have c1 := claim_set .idle h
    have c2 := held_set .idle h
    have c3 := ctok_set .idle h
    simp only [claim, held, ctok] at c1 c2 c3
    have k : Keep s { s with ref := (rel s.ref s.freed).1, freed := (rel s.ref s.freed).2, threads := s.threads.set i .idle } :=
      ⟨.refl _, rfl, rfl, rfl, id, by grind⟩
    have hr := ref_pos hI (.inr (.inl ⟨i, _, h, rfl⟩))
    refine ⟨T_any hI k rfl trivial, by grind, by grind, ?_, rel_freed hI.freed hr, hI.user, hI.ub, hnew, ?_, ?_, hfin, hown, hown', res_mk hI (.refl _) fun _ h => .inl h⟩
    · show s.ref - 1 = s.user + sumBy hold s.ops + sumBy held (s.threads.set i _); omega
    · exact wake_mk hI h rfl (by simp) (by simp) (by grind)
    · exact prog_mk hI h rfl (by simp) (by simp) rfl id (by grind)
  | loopNull i k o h ho hn =>
    obtain ⟨t1, t2, t3, t4⟩ := hI.T i _ h
    have c1 := claim_set (.res k) h
    have c2 := held_set (.res k) h
    have c3 := ctok_set (.res k) h
    simp only [claim, held, ctok] at c1 c2 c3
    refine ⟨T_creator hI h rfl ⟨.refl _, Nat.le_refl _⟩ rfl ⟨t1, o, ho, .inl hn⟩, by grind, by grind, ?_, hI.freed, hI.user, hI.ub, hnew, ?_, ?_, hfin, hown, hown', res_mk hI (.refl _) fun _ h => .inl h⟩
    · show s.ref = s.user + sumBy hold s.ops + sumBy held (s.threads.set i _); omega
    · exact wake_mk hI h rfl (by simp) (by simp) (by grind)
    · exact prog_mk hI h rfl (by simp) (by simp) rfl id (by grind)
  | loopSet i k o h ho hn =>
    obtain ⟨t1, t2, t3, t4⟩ := hI.T i _ h
    have c1 := claim_set (.add k) h
    have c2 := held_set (.add k) h
    have c3 := ctok_set (.add k) h
    have c4 := hold_set { o with hold := true } ho
    have e4 : hold { o with hold := true } = 1 := rfl
    simp only [claim, held, ctok] at c1 c2 c3
    have hj := set_get (x := { o with hold := true }) ho
    have hlo := hnew k o ho (by omega)
    have hzero : sumBy (claim k) s.threads = 0 := by
      refine (sumBy_eq_zero _ _).2 fun p hp => ?_
      obtain ⟨i', hi'⟩ := List.getElem?_of_mem hp
      by_cases e : i = i'
      · subst e; rw [h] at hi'; cases hi'; rfl
      · have hc := (ctok_le hI h rfl).2 i' p e hi'
        have hT := hI.T i' p hi'
        cases p with
        | invoke j' =>
          have := hT.1
          simp only [claim]; rw [if_neg (by omega)]
        | idle => rfl
        | release => rfl
        | swap => rfl
        | called => rfl
        | _ => cases hc
    have h1 := hcl k o ho
    rw [hzero, hlo, t4] at h1
    have h1' : b2n o.hold = 0 := h1
    have hho : hold o = 0 := h1'
    have hm : Mono s.ops (s.ops.set k { o with hold := true }) := Mono.set ho ⟨rfl, id⟩
    refine ⟨T_creator hI h rfl ⟨hm, Nat.le_refl _⟩ rfl ⟨t1, t3, t4, _, hj, hn⟩, by grind, ?_, ?_, ?_, hI.user, hI.ub, by grind, ?_, ?_, by grind, hown, hown', res_mk hI hm fun _ h => .inl h⟩
    · intro j' a ha
      show b2n a.hold = b2n a.listed + sumBy (claim j') (s.threads.set i _) + b2n (s.refused == some j')
      have := c1 j'
      rcases get_set ha with ⟨rfl, rfl⟩ | ⟨e, ha'⟩
      · simp only [if_pos] at this
        show b2n true = b2n o.listed + _ + _
        rw [hlo, t4]
        show 1 = 0 + _ + 0
        omega
      · have := hcl j' a ha'
        rw [if_neg e] at *
        omega
    · show s.ref + 1 = s.user + sumBy hold (s.ops.set k _) + sumBy held (s.threads.set i _); omega
    · show s.freed = if s.ref + 1 = 0 then 1 else 0
      have := ref_pos hI (.inl t1)
      rw [hI.freed, if_neg this, if_neg (by omega)]
    · exact wake_mk hI h rfl (by simp) (by simp) (by grind)
    · exact prog_mk hI h rfl (by simp) (by simp) rfl id (by grind)
  | loopEnd i k h hk =>
    obtain ⟨t1, t2, t3, t4⟩ := hI.T i _ h
    have c1 := claim_set .fin h
    have c2 := held_set .fin h
    have c3 := ctok_set .fin h
    simp only [claim, held, ctok] at c1 c2 c3
    refine ⟨T_creator hI h rfl ⟨.refl _, Nat.le_refl _⟩ rfl ⟨t1, .inl (by show s.prog = s.ops.length; omega)⟩, by grind, by grind, ?_, hI.freed, hI.user, hI.ub, hnew, ?_, ?_, hfin, hown, hown', res_mk hI (.refl _) fun _ h => .inl h⟩
    · show s.ref = s.user + sumBy hold s.ops + sumBy held (s.threads.set i _); omega
    · exact wake_mk hI h rfl (by simp) (by simp) (by grind)
    · exact prog_mk hI h rfl (by simp) (by simp) rfl id (by grind)
  | addLock i k o h ho hl =>
    obtain ⟨t1, t2, t3, o1, t4, t5⟩ := hI.T i _ h
    rw [ho] at t4; cases t4
    have c1 := claim_set (.addLocked k) h
    have c2 := held_set (.addLocked k) h
    have c3 := ctok_set (.addLocked k) h
    have c4 := hold_set { o with locked := true } ho
    have e4 : hold { o with locked := true } = hold o := rfl
    simp only [claim, held, ctok] at c1 c2 c3
    have hj := set_get (x := { o with locked := true }) ho
    have hm : Mono s.ops (s.ops.set k { o with locked := true }) := Mono.set ho ⟨rfl, id⟩
    refine ⟨T_creator hI h rfl ⟨hm, Nat.le_refl _⟩ rfl ⟨t1, t2, t3, _, hj, t5, rfl⟩, by grind, by grind, ?_, hI.freed, hI.user, hI.ub, by grind, ?_, ?_, by grind, hown, hown', res_mk hI hm fun _ h => .inl h⟩
    · show s.ref = s.user + sumBy hold (s.ops.set k _) + sumBy held (s.threads.set i _); omega
    · exact wake_mk hI h rfl (by simp) (by simp) (by grind)
    · exact prog_mk hI h rfl (by simp) (by simp) rfl id (by grind)
  | addOk i k o h ho hd =>
    obtain ⟨t1, t2, t3, o1, t4, t5, t6⟩ := hI.T i _ h
    rw [ho] at t4; cases t4
    have c1 := claim_set (.addPush k) h
    have c2 := held_set (.addPush k) h
    have c3 := ctok_set (.addPush k) h
    simp only [claim, held, ctok] at c1 c2 c3
    refine ⟨T_creator hI h rfl ⟨.refl _, Nat.le_refl _⟩ rfl ⟨t1, t2, t3, _, ho, t5, t6⟩, by grind, by grind, ?_, hI.freed, hI.user, hI.ub, hnew, ?_, ?_, hfin, hown, hown', res_mk hI (.refl _) fun _ h => .inl h⟩
    · show s.ref = s.user + sumBy hold s.ops + sumBy held (s.threads.set i _); omega
    · intro j o' ho' hd' hw
      have : ∃ i : Nat, s.threads[i]? = some (.swap j) := by
        refine hI.wake j o' ho' hd' (hw.imp id ?_)
        rintro ⟨i', hw⟩
        rcases get_set hw with ⟨_, e⟩ | ⟨e, hw'⟩
        · cases e
          rw [show s.ops[k]? = some o' from ho'] at ho; cases ho
          rw [hd] at hd'; cases hd'
        · exact ⟨i', hw'⟩
      obtain ⟨i', hi'⟩ := this
      exact ⟨i', stay h (by simp) hi'⟩
    · exact prog_mk hI h rfl (by simp) (by simp) rfl id (by grind)
  | addRefuse i k o h ho hd =>
    obtain ⟨t1, t2, t3, o1, t4, t5, t6⟩ := hI.T i _ h
    rw [ho] at t4; cases t4
    have c1 := claim_set (.res k) h
    have c2 := held_set (.res k) h
    have c3 := ctok_set (.res k) h
    have c4 := hold_set { o with locked := false } ho
    have e4 : hold { o with locked := false } = hold o := rfl
    simp only [claim, held, ctok] at c1 c2 c3
    have hj := set_get (x := { o with locked := false }) ho
    have hm : Mono s.ops (s.ops.set k { o with locked := false }) := Mono.set ho ⟨rfl, id⟩
    refine ⟨T_creator hI h rfl ⟨hm, Nat.le_refl _⟩ rfl ⟨t1, _, hj, .inr hd⟩, by grind, ?_, ?_, hI.freed, hI.user, hI.ub, by grind, ?_, ?_, by grind, hown, hown', res_mk hI hm fun _ h => .inl h⟩
    · intro j' a ha
      show b2n a.hold = b2n a.listed + sumBy (claim j') (s.threads.set i _) + b2n (some k == some j')
      have := c1 j'
      rcases get_set ha with ⟨rfl, rfl⟩ | ⟨e, ha'⟩
      · have h1 := hcl k o ho
        rw [t3] at h1
        simp only [if_pos] at this
        have h1' : b2n o.hold = b2n o.listed + sumBy (claim k) s.threads + 0 := h1
        have : b2n (some k == some k) = 1 := by simp [b2n]
        show b2n o.hold = b2n o.listed + _ + _
        omega
      · have h1 := hcl j' a ha'
        rw [t3] at h1
        have h1' : b2n a.hold = b2n a.listed + sumBy (claim j') s.threads + 0 := h1
        have : b2n (some k == some j') = 0 := by simp [b2n, e]
        rw [if_neg e] at *
        omega
    · show s.ref = s.user + sumBy hold (s.ops.set k _) + sumBy held (s.threads.set i _); omega
    · exact wake_mk hI h rfl (by simp) (by simp) (by grind)
    · exact prog_mk hI h rfl (by simp) (by simp) rfl id (by grind)
  | addPush i k o h ho =>
    obtain ⟨t1, t2, t3, o1, t4, t5, t6⟩ := hI.T i _ h
    rw [ho] at t4; cases t4
    have c1 := claim_set (.loop (k + 1)) h
    have c2 := held_set (.loop (k + 1)) h
    have c3 := ctok_set (.loop (k + 1)) h
    have c4 := hold_set { o with locked := false, listed := true } ho
    have e4 : hold { o with locked := false, listed := true } = hold o := rfl
    simp only [claim, held, ctok] at c1 c2 c3
    have hj := set_get (x := { o with locked := false, listed := true }) ho
    have hkl : k < s.ops.length := (List.getElem?_eq_some_iff.1 ho).1
    have hm : Mono s.ops (s.ops.set k { o with locked := false, listed := true }) := Mono.set ho ⟨rfl, id⟩
    have hlo := hnew k o ho (by omega)
    refine ⟨T_creator hI h rfl ⟨hm, by show s.prog ≤ k + 1; omega⟩ rfl ⟨t1, by rw [hm.1]; omega, rfl, t3⟩, by grind, ?_, ?_, hI.freed, hI.user, hI.ub, ?_, ?_, ?_, ?_, hown, hown', res_mk hI hm fun _ h => .inl h⟩
    · intro j' a ha
      show b2n a.hold = b2n a.listed + sumBy (claim j') (s.threads.set i _) + b2n (s.refused == some j')
      have := c1 j'
      rcases get_set ha with ⟨rfl, rfl⟩ | ⟨e, ha'⟩
      · have h1 := hcl k o ho
        rw [hlo] at h1
        simp only [if_pos] at this
        show b2n o.hold = b2n true + _ + _
        simp only [show b2n true = 1 from rfl, show b2n false = 0 from rfl] at *
        omega
      · have h1 := hcl j' a ha'
        rw [if_neg e] at *
        omega
    · show s.ref = s.user + sumBy hold (s.ops.set k _) + sumBy held (s.threads.set i _); omega
    · intro j' a ha hge
      have hge' : k + 1 ≤ j' := hge
      rcases get_set ha with ⟨rfl, rfl⟩ | ⟨e, ha'⟩
      · omega
      · exact hnew j' a ha' (by omega)
    · exact wake_mk hI h rfl (by simp) (by simp) (by grind)
    · intro hr j' hj'
      have hj2 : j' < k + 1 := hj'
      by_cases ej : k = j'
      · subst ej; exact .inl ⟨_, hj, rfl⟩
      · rcases hI.prog hr j' (by omega) with ⟨a, ha, e⟩ | ⟨i', e | e⟩
        · exact .inl ⟨a, by show (s.ops.set k _)[j']? = _; rw [List.getElem?_set_ne ej, ha], e⟩
        · exact .inr ⟨i', .inl (stay h (by simp) e)⟩
        · exact .inr ⟨i', .inr (stay h (by simp) e)⟩
    · intro hc; rw [show s.creating = false from hc] at t1; cases t1
  | res i k h =>
    obtain ⟨t1, o, t2, t3⟩ := hI.T i _ h
    have c1 := claim_set (.roll k) h
    have c2 := held_set (.roll k) h
    have c3 := ctok_set (.roll k) h
    simp only [claim, held, ctok] at c1 c2 c3
    have hkl : k < s.ops.length := (List.getElem?_eq_some_iff.1 t2).1
    refine ⟨T_creator hI h rfl ⟨.refl _, Nat.le_refl _⟩ rfl ⟨t1, Nat.le_of_lt hkl, by simp⟩, by grind, by grind, ?_, hI.freed, hI.user, hI.ub, hnew, ?_, ?_, ?_, own_cons hown, fun _ => own_ne, res_mk hI (.refl _) ?_⟩
    · show s.ref = s.user + sumBy hold s.ops + sumBy held (s.threads.set i _); omega
    · exact wake_mk hI h rfl (by simp) (by simp) (by grind)
    · intro hr; cases hr
    · intro _ hr; cases hr
    · intro j' hj'
      rcases List.mem_cons.1 hj' with rfl | hj'
      · exact .inr ⟨o, t2, t3⟩
      · exact .inl hj'
  | rollNull i k o h ho hn =>
    obtain ⟨t1, t2, t3⟩ := hI.T i _ h
    have c1 := claim_set (.roll k) h
    have c2 := held_set (.roll k) h
    have c3 := ctok_set (.roll k) h
    simp only [claim, held, ctok] at c1 c2 c3
    refine ⟨T_creator hI h rfl ⟨.refl _, Nat.le_refl _⟩ rfl ⟨t1, by show k ≤ s.ops.length; omega, t3⟩, by grind, by grind, ?_, hI.freed, hI.user, hI.ub, hnew, ?_, ?_, hfin, hown, hown', res_mk hI (.refl _) fun _ h => .inl h⟩
    · show s.ref = s.user + sumBy hold s.ops + sumBy held (s.threads.set i _); omega
    · exact wake_mk hI h rfl (by simp) (by simp) (by grind)
    · exact prog_mk hI h rfl (by simp) (by simp) rfl id (by grind)
  | rollRemove i k o h ho hn hl hli =>
    obtain ⟨t1, t2, t3⟩ := hI.T i _ h
    have c1 := claim_set (.reset k) h
    have c2 := held_set (.reset k) h
    have c3 := ctok_set (.reset k) h
    have c4 := hold_set { o with listed := false } ho
    have e4 : hold { o with listed := false } = hold o := rfl
    simp only [claim, held, ctok] at c1 c2 c3
    have hj := set_get (x := { o with listed := false }) ho
    have hm : Mono s.ops (s.ops.set k { o with listed := false }) := Mono.set ho ⟨rfl, id⟩
    refine ⟨T_creator hI h rfl ⟨hm, Nat.le_refl _⟩ rfl ⟨t1, by rw [hm.1]; omega, t3⟩, by grind, ?_, ?_, hI.freed, hI.user, hI.ub, by grind, ?_, ?_, by grind, hown, hown', res_mk hI hm fun _ h => .inl h⟩
    · intro j' a ha
      show b2n a.hold = b2n a.listed + sumBy (claim j') (s.threads.set i _) + b2n (s.refused == some j')
      have := c1 j'
      rcases get_set ha with ⟨rfl, rfl⟩ | ⟨e, ha'⟩
      · have h1 := hcl k o ho
        rw [hli] at h1
        simp only [if_pos] at this
        show b2n o.hold = b2n false + _ + _
        simp only [show b2n true = 1 from rfl, show b2n false = 0 from rfl] at *
        omega
      · have h1 := hcl j' a ha'
        rw [if_neg e] at *
        omega
    · show s.ref = s.user + sumBy hold (s.ops.set k _) + sumBy held (s.threads.set i _); omega
    · exact wake_mk hI h rfl (by simp) (by simp) (by grind)
    · intro hr; exact absurd hr t3
  | rollSkip i k o h ho hn hl hli =>
    obtain ⟨t1, t2, t3⟩ := hI.T i _ h
    have c1 := claim_set (.roll k) h
    have c2 := held_set (.roll k) h
    have c3 := ctok_set (.roll k) h
    simp only [claim, held, ctok] at c1 c2 c3
    refine ⟨T_creator hI h rfl ⟨.refl _, Nat.le_refl _⟩ rfl ⟨t1, by show k ≤ s.ops.length; omega, t3⟩, by grind, by grind, ?_, hI.freed, hI.user, hI.ub, hnew, ?_, ?_, hfin, hown, hown', res_mk hI (.refl _) fun _ h => .inl h⟩
    · show s.ref = s.user + sumBy hold s.ops + sumBy held (s.threads.set i _); omega
    · exact wake_mk hI h rfl (by simp) (by simp) (by grind)
    · exact prog_mk hI h rfl (by simp) (by simp) rfl id (by grind)
  | reset i k o h ho hh =>
    obtain ⟨t1, t2, t3⟩ := hI.T i _ h
    have c1 := claim_set (.roll k) h
    have c2 := held_set (.roll k) h
    have c3 := ctok_set (.roll k) h
    have c4 := hold_set { o with hold := false } ho
    have e4 : hold { o with hold := false } = 0 := rfl
    have hho : hold o = 1 := by simp [hold, hh, b2n]
    simp only [claim, held, ctok] at c1 c2 c3
    have hm : Mono s.ops (s.ops.set k { o with hold := false }) := Mono.set ho ⟨rfl, id⟩
    have hr := ref_pos hI (.inl t1)
    refine ⟨T_creator hI h rfl ⟨hm, Nat.le_refl _⟩ rfl ⟨t1, by rw [hm.1]; omega, t3⟩, by grind, ?_, ?_, rel_freed hI.freed hr, hI.user, hI.ub, by grind, ?_, ?_, by grind, hown, hown', res_mk hI hm fun _ h => .inl h⟩
    · intro j' a ha
      show b2n a.hold = b2n a.listed + sumBy (claim j') (s.threads.set i _) + b2n (s.refused == some j')
      have := c1 j'
      rcases get_set ha with ⟨rfl, rfl⟩ | ⟨e, ha'⟩
      · have h1 := hcl k o ho
        rw [hh] at h1
        simp only [if_pos] at this
        show b2n false = b2n o.listed + _ + _
        simp only [show b2n true = 1 from rfl, show b2n false = 0 from rfl] at *
        omega
      · have h1 := hcl j' a ha'
        rw [if_neg e] at *
        omega
    · show s.ref - 1 = s.user + sumBy hold (s.ops.set k _) + sumBy held (s.threads.set i _); omega
    · exact wake_mk hI h rfl (by simp) (by simp) (by grind)
    · intro hr; exact absurd hr t3
  | resetNull i k o h ho hh =>
    exfalso
    have h1 := hcl k o ho
    have h2 := le_sumBy (claim k) _ _ _ h
    simp only [claim, if_pos] at h2
    rw [hh] at h1
    simp only [show b2n false = 0 from rfl] at h1
    omega
  | rollEnd i h =>
    obtain ⟨t1, t2, t3⟩ := hI.T i _ h
    have c1 := claim_set .fin h
    have c2 := held_set .fin h
    have c3 := ctok_set .fin h
    simp only [claim, held, ctok] at c1 c2 c3
    refine ⟨T_creator hI h rfl ⟨.refl _, Nat.le_refl _⟩ rfl ⟨t1, .inr t3⟩, by grind, by grind, ?_, hI.freed, hI.user, hI.ub, hnew, ?_, ?_, hfin, hown, hown', res_mk hI (.refl _) fun _ h => .inl h⟩
    · show s.ref = s.user + sumBy hold s.ops + sumBy held (s.threads.set i _); omega
    · exact wake_mk hI h rfl (by simp) (by simp) (by grind)
    · exact prog_mk hI h rfl (by simp) (by simp) rfl id (by grind)
  | fin i h =>
    obtain ⟨t1, t2⟩ := hI.T i _ h
    have c1 := claim_set .idle h
    have c2 := held_set .idle h
    have c3 := ctok_set .idle h
    simp only [claim, held, ctok] at c1 c2 c3
    refine ⟨T_creator hI h rfl ⟨.refl _, Nat.le_refl _⟩ rfl trivial, ?_, by grind, ?_, hI.freed, ?_, hI.ub, hnew, ?_, ?_, ?_, hown, hown', res_mk hI (.refl _) fun _ h => .inl h⟩
    · show sumBy ctok (s.threads.set i _) = 0
      rw [t1] at hone
      have : sumBy ctok s.threads = 1 := hone
      omega
    · show s.ref = s.user + sumBy hold s.ops + sumBy held (s.threads.set i _); omega
    · intro e; cases e
    · exact wake_mk hI h rfl (by simp) (by simp) (by grind)
    · exact prog_mk hI h rfl (by simp) (by simp) rfl id (by grind)
    · intro _ hr
      rcases t2 with e | e
      · exact e
      · exact absurd hr e
  | cancel hu hc h0 =>
    refine ⟨fun i p h => T_keep (hI.T i p h) ⟨.refl _, rfl, rfl, rfl, id, by grind⟩, hone, hcl, href, hI.freed, hI.user, hI.ub, hnew, hI.wake, hI.prog, hfin, ?_, ?_, hI.res⟩
    · intro j e; cases e
    · intro _; simp
  | copy hu hc =>
    refine ⟨fun i p h => T_keep (hI.T i p h) ⟨.refl _, rfl, rfl, rfl, id, by grind⟩, hone, hcl, ?_, ?_, ?_, hI.ub, hnew, hI.wake, hI.prog, hfin, hown, hown', hI.res⟩
    · show s.ref + 1 = s.user + 1 + sumBy hold s.ops + sumBy held s.threads; omega
    · show s.freed = if s.ref + 1 = 0 then 1 else 0
      rw [hI.freed, if_neg (by omega), if_neg (by omega)]
    · intro _; show 1 ≤ s.user + 1; omega
  | drop hu hc =>
    refine ⟨fun i p h => T_keep (hI.T i p h) ⟨.refl _, rfl, rfl, rfl, id, by grind⟩, hone, hcl, ?_, rel_freed hI.freed (by omega), ?_, hI.ub, hnew, hI.wake, hI.prog, hfin, hown, hown', hI.res⟩
    · show s.ref - 1 = s.user - 1 + sumBy hold s.ops + sumBy held s.threads; omega
    · intro e; rw [show s.creating = true from e] at hc; cases hc


theorem inv_init {s} (h : Init s) : Inv s := by
  obtain ⟨ns, n, hne, rfl⟩ := h
  have hr : ∀ (f : PC → Nat), f .idle = 0 → sumBy f (List.replicate n PC.idle) = 0 := fun f hf =>
    (sumBy_eq_zero _ _).2 fun x hx => by rw [List.eq_of_mem_replicate hx]; exact hf
  have hl : sumBy hold (ns.map fun b => ({ null := b } : Op)) = 0 :=
    (sumBy_eq_zero _ _).2 fun x hx => by
      obtain ⟨b, _, rfl⟩ := List.mem_map.1 hx; rfl
  have hop : ∀ (j : Nat) (o : Op), (ns.map fun b => ({ null := b } : Op))[j]? = some o → o.done = false ∧ o.listed = false ∧ o.hold = false := by
    intro j o ho
    obtain ⟨b, _, rfl⟩ := List.mem_map.1 (List.mem_of_getElem? ho); exact ⟨rfl, rfl, rfl⟩
  refine ⟨?_, ?_, ?_, ?_, ?_, ?_, rfl, ?_, ?_, ?_, ?_, ?_, ?_, ?_⟩
  · intro i p hp
    cases i with
    | zero =>
      simp at hp; subst hp
      exact ⟨rfl, Nat.zero_le _, rfl, rfl⟩
    | succ i =>
      simp at hp
      rw [List.getElem?_replicate] at hp
      split at hp
      · cases hp; trivial
      · cases hp
  · show sumBy ctok (_ :: _) = 1
    rw [sumBy_cons, hr _ rfl]; rfl
  · intro j o ho
    obtain ⟨_, h2, h3⟩ := hop j o ho
    show b2n o.hold = b2n o.listed + sumBy (claim j) (_ :: _) + 0
    rw [sumBy_cons, hr _ rfl, h2, h3]; rfl
  · show 1 = 1 + sumBy hold _ + sumBy held (_ :: _)
    rw [sumBy_cons, hr _ rfl, hl]; rfl
  · rfl
  · intro _; exact Nat.le_refl 1
  · intro j o ho _; exact (hop j o ho).2.1
  · intro j o ho hd; have := (hop j o ho).1; rw [hd] at this; cases this
  · intro _ j hj; exact absurd hj (Nat.not_lt_zero _)
  · intro h; cases h
  · intro j h; cases h
  · intro h; exact absurd rfl h
  · intro j h; cases h

theorem inv_reach {s} (h : Reach s) : Inv s := by
  induction h with
  | init s h => exact inv_init h
  | step s s' _ hs ih => exact inv_step ih hs

end Verif.When.Any
