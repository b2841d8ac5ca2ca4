import Verif.Throw.Model
/-!
# C96: callbacks that throw
-/
namespace Verif.Throw

@[simp] theorem upd_same {α : Type} (f : Nat → α) (i : Nat) (x : α) : upd f i x i = x := by simp [upd]
theorem upd_other {α : Type} (f : Nat → α) {i j : Nat} (x : α) (h : j ≠ i) : upd f i x j = f j := by simp [upd, h]

/-- a task is being called -/
def PC.running : PC → Nat
  | .run _ => 1
  | _ => 0

/-- in the loop -/
def PC.inside : PC → Nat
  | .out => 0
  | _ => 1

/-- what is known of the counters at each position: `T` tasks have thrown -/
def Count (T q processed pend msgs : Nat) : PC → Prop
  | .sub => 0 < q → 0 < msgs ∨ 0 < processed
  | .chk => T ≤ pend ∧ pend ≤ T + q ∧ (pend < T + q → 0 < msgs ∨ 0 < processed ∨ T < pend)
  | .run _ => T + 1 ≤ pend ∧ pend ≤ T + q + 1
  | .timers | .sleep => processed = 0 ∧ (0 < q → 0 < msgs)
  | _ => True

structure Inv (pool : Bool) (o : Nat → Out) (s : St) : Prop where
  reentry : s.reentry = s.thrown.length + s.pc.inside
  cnt : s.cnt = s.thrown.length + s.q.length + s.processed + s.pc.running
  posted : s.posted = s.taken ++ s.q
  nodup : s.posted.Nodup
  count : Count s.thrown.length s.q.length s.processed s.pend s.msgs s.pc
  run : ∀ t, s.pc = .run t → t ∈ s.taken ∧ t ∉ s.thrown
  done : ∀ t, t ∈ s.taken → s.pc ≠ .run t → t ∉ s.thrown → s.freed t = true ∧ (s.hr t).isSome
  thrown : ∀ t, t ∈ s.thrown → t ∈ s.taken ∧ o t = .other ∧ s.freed t = false ∧ (s.canceled t = false → s.hr t = none)
  thrownNodup : s.thrown.Nodup
  ok : ∀ t, t ∈ s.posted → s.hr t = some .ok → t ∈ s.taken ∧ o t = .ret
  cancelled : ∀ t, t ∈ s.posted → s.hr t = some .cancelled → s.canceled t = true ∨ o t = .cancel
  fresh : ∀ t, t ∉ s.posted → s.canceled t = false
  hrc : ∀ t, t ∈ s.posted → s.canceled t = true → (s.hr t).isSome
  early : ∀ t, (t ∈ s.q ∨ s.pc = .run t) → s.freed t = false ∧ (s.canceled t = false → s.hr t = none)
  new : ∀ t, t ∉ s.posted → s.freed t = false
  ended : s.ended = true → s.stop = true ∧ s.q = [] ∧ s.thrown = [] ∧ s.pc.running = 0
  pool : pool = true → s.thrown = []

theorem wakeup_isSome (a : Option Res) (r : Res) : (wakeup a (some r)).isSome := by cases a <;> rfl
theorem wakeup_some {a b : Option Res} {r : Res} (h : wakeup a b = some r) : a = some r ∨ (a = none ∧ b = some r) := by
  cases a with
  | none => exact .inr ⟨rfl, h⟩
  | some x => exact .inl h

/-- what the end of a task says about it -/
theorem run_ok {c : Bool} {x : Out} (h : (runTask c x).exc = false) : (c = true ∧ (runTask c x).wake = none) ∨ (c = false ∧ x = .ret ∧ (runTask c x).wake = some .ok) ∨
    (c = false ∧ x = .cancel ∧ (runTask c x).wake = some .cancelled) := by
  cases c <;> cases x <;> simp_all [runTask]

theorem run_exc {c : Bool} {x : Out} (h : (runTask c x).exc = true) : c = false ∧ x = .other := by
  cases c <;> cases x <;> simp_all [runTask]

/-- a step that only moves the thread between positions without a task -/
theorem Inv.move {pool : Bool} {o : Nat → Out} {s : St} (h : Inv pool o s) {pc : PC} {pend msgs : Nat} (h0 : s.pc.running = 0) (h1 : pc.running = 0) (hi : pc.inside = s.pc.inside)
    (hc : Count s.thrown.length s.q.length s.processed pend msgs pc) : Inv pool o { s with pc := pc, pend := pend, msgs := msgs } := by
  have nr : ∀ t, pc ≠ .run t := by rintro t rfl; simp [PC.running] at h1
  have nr0 : ∀ t, s.pc ≠ .run t := by intro t e; rw [e] at h0; simp [PC.running] at h0
  exact
    { reentry := by simp only [hi]; exact h.reentry
      cnt := by simp only [h1]; have := h.cnt; omega
      posted := h.posted
      nodup := h.nodup
      count := hc
      run := fun t e => absurd e (nr t)
      done := fun t ht _ hn => h.done t ht (nr0 t) hn
      thrown := h.thrown
      thrownNodup := h.thrownNodup
      ok := h.ok
      cancelled := h.cancelled
      fresh := h.fresh
      hrc := h.hrc
      early := by
        rintro t (ht | e)
        · exact h.early t (.inl ht)
        · exact absurd e (nr t)
      new := h.new
      ended := fun e => by obtain ⟨a, b, c, _⟩ := h.ended e; exact ⟨a, b, c, h1⟩
      pool := h.pool }

theorem Inv.step {pool : Bool} {o : Nat → Out} {s s' : St} (h : Inv pool o s) (hs : Step pool o s s') : Inv pool o s' := by
  have hcnt := h.cnt
  have hre := h.reentry
  have hcount := h.count
  have nd := h.nodup
  rw [h.posted] at nd
  have disj : ∀ t, t ∈ s.taken → t ∉ s.q := fun t h1 h2 => (List.nodup_append.mp nd).2.2 t h1 t h2 rfl
  have tp : ∀ t, t ∈ s.taken → t ∈ s.posted := fun t ht => by rw [h.posted]; exact List.mem_append_left _ ht
  have qp : ∀ t, t ∈ s.q → t ∈ s.posted := fun t ht => by rw [h.posted]; exact List.mem_append_right _ ht
  cases hs with
  | post t hd hst hn =>
    have ne : ∀ x, x ∈ s.posted → x ≠ t := fun x hx e => hn (e ▸ hx)
    exact
      { reentry := hre
        cnt := by simp; omega
        posted := by simp [h.posted]
        nodup := by
          rw [List.nodup_append]
          refine ⟨h.nodup, by simp, fun a ha b hb => ?_⟩
          simp at hb
          subst hb
          exact ne a ha
        count := by
          show Count _ (s.q ++ [t]).length _ _ _ s.pc
          simp only [List.length_append, List.length_singleton]
          revert hcount
          cases hpc : s.pc with
          | chk =>
            simp only [Count, hpc, PC.running, PC.inside] at hcnt hre ⊢
            rintro ⟨h1, h2, h3⟩
            refine ⟨h1, by omega, fun _ => ?_⟩
            by_cases hx : s.cnt + 1 < 2 + s.reentry
            · left; rw [if_pos hx]; omega
            · rw [if_neg hx]
              by_cases h4 : s.pend < s.thrown.length + s.q.length
              · rcases h3 h4 with h5 | h5 | h5 <;> omega
              · by_cases h6 : s.thrown.length < s.pend
                · exact .inr (.inr h6)
                · right; left; omega
          | sub =>
            simp only [Count, hpc, PC.running, PC.inside] at hcnt hre ⊢
            intro h3 _
            by_cases hx : s.cnt + 1 < 2 + s.reentry
            · left; rw [if_pos hx]; omega
            · rw [if_neg hx]
              by_cases h4 : 0 < s.q.length
              · exact h3 h4
              · right; omega
          | run x =>
            simp only [Count]
            rintro ⟨h1, h2⟩
            exact ⟨h1, by omega⟩
          | timers =>
            simp only [Count, hpc, PC.running, PC.inside] at hcnt hre ⊢
            rintro ⟨h1, h2⟩
            refine ⟨h1, fun _ => ?_⟩
            by_cases hx : s.cnt + 1 < 2 + s.reentry
            · rw [if_pos hx]; omega
            · rw [if_neg hx]
              have := h2 (by omega)
              omega
          | sleep =>
            simp only [Count, hpc, PC.running, PC.inside] at hcnt hre ⊢
            rintro ⟨h1, h2⟩
            refine ⟨h1, fun _ => ?_⟩
            by_cases hx : s.cnt + 1 < 2 + s.reentry
            · rw [if_pos hx]; omega
            · rw [if_neg hx]
              have := h2 (by omega)
              omega
          | out => intro _; trivial
          | peek => intro _; trivial
          | load => intro _; trivial
        run := h.run
        done := fun x hx hr ht => by
          have := h.done x hx hr ht
          simp only [upd_other _ _ (ne x (tp x hx))]
          exact this
        thrown := fun x hx => by
          obtain ⟨a, b, c, d⟩ := h.thrown x hx
          simp only [upd_other _ _ (ne x (tp x a))]
          exact ⟨a, b, c, d⟩
        thrownNodup := h.thrownNodup
        ok := fun x hx e => by
          by_cases hxt : x = t
          · subst hxt; simp at e
          · simp only [upd_other _ _ hxt] at e
            simp [hxt] at hx
            exact h.ok x hx e
        cancelled := fun x hx e => by
          by_cases hxt : x = t
          · subst hxt; simp at e
          · simp only [upd_other _ _ hxt] at e
            simp [hxt] at hx
            exact h.cancelled x hx e
        fresh := fun x hx => h.fresh x (fun hp => hx (List.mem_append_left _ hp))
        hrc := fun x hx hc => by
          by_cases hxt : x = t
          · subst hxt; rw [h.fresh x hn] at hc; cases hc
          · simp only [upd_other _ _ hxt]
            simp [hxt] at hx
            exact h.hrc x hx hc
        early := by
          intro x hx
          by_cases hxt : x = t
          · subst hxt
            exact ⟨h.new x hn, fun _ => by simp⟩
          · simp only [upd_other _ _ hxt]
            apply h.early
            rcases hx with hx | hx
            · simp [hxt] at hx; exact .inl hx
            · exact .inr hx
        new := fun x hx => h.new x (fun hp => hx (List.mem_append_left _ hp))
        ended := fun e => by rw [(h.ended e).1] at hst; cases hst
        pool := h.pool }
  | refused t hd hst hn =>
    have ne : ∀ x, x ∈ s.posted → x ≠ t := fun x hx e => hn (e ▸ hx)
    exact
      { h with
        done := fun x hx hr ht => by
          simp only [upd_other _ _ (ne x (tp x hx))]
          exact h.done x hx hr ht
        thrown := fun x hx => by
          obtain ⟨a, b, c, d⟩ := h.thrown x hx
          simp only [upd_other _ _ (ne x (tp x a))]
          exact ⟨a, b, c, d⟩
        ok := fun x hx e => by simp only [upd_other _ _ (ne x hx)] at e; exact h.ok x hx e
        cancelled := fun x hx e => by simp only [upd_other _ _ (ne x hx)] at e; exact h.cancelled x hx e
        hrc := fun x hx hc => by simp only [upd_other _ _ (ne x hx)]; exact h.hrc x hx hc
        early := fun x hx => by
          have hp : x ∈ s.posted := by
            rcases hx with hx | hx
            · exact qp x hx
            · exact tp x (h.run x hx).1
          simp only [upd_other _ _ (ne x hp)]
          exact h.early x hx }
  | cancel t hd hp hc =>
    exact
      { h with
        done := fun x hx hr ht => by
          obtain ⟨a, b⟩ := h.done x hx hr ht
          refine ⟨a, ?_⟩
          by_cases e : x = t
          · subst e; simp [wakeup_isSome]
          · simp only [upd_other _ _ e]; exact b
        thrown := fun x hx => by
          obtain ⟨a, b, c, d⟩ := h.thrown x hx
          refine ⟨a, b, c, fun hcx => ?_⟩
          by_cases e : x = t
          · subst e; simp at hcx
          · simp only [upd_other _ _ e] at hcx ⊢; exact d hcx
        ok := fun x hx e => by
          by_cases ex : x = t
          · subst ex
            simp at e
            rcases wakeup_some e with e | ⟨_, e⟩
            · exact h.ok x hx e
            · cases e
          · simp only [upd_other _ _ ex] at e; exact h.ok x hx e
        cancelled := fun x hx e => by
          by_cases ex : x = t
          · subst ex; simp
          · simp only [upd_other _ _ ex] at e ⊢; exact h.cancelled x hx e
        fresh := fun x hx => by
          have : x ≠ t := fun e => hx (e ▸ hp)
          simp only [upd_other _ _ this]; exact h.fresh x hx
        hrc := fun x hx hcx => by
          by_cases e : x = t
          · subst e; simp [wakeup_isSome]
          · simp only [upd_other _ _ e] at hcx ⊢; exact h.hrc x hx hcx
        early := fun x hx => by
          obtain ⟨a, b⟩ := h.early x hx
          refine ⟨a, fun hcx => ?_⟩
          by_cases e : x = t
          · subst e; simp at hcx
          · simp only [upd_other _ _ e] at hcx ⊢; exact b hcx }
  | join hd => exact { h with ended := fun e => by obtain ⟨_, b⟩ := h.ended e; exact ⟨rfl, b⟩ }
  | enter hd hpc =>
    have := h.move (pc := .out) (pend := s.pend) (msgs := s.msgs) (by simp [hpc, PC.running]) rfl (by simp [hpc]) trivial
    exact
      { this with
        reentry := by simp [hre, hpc, PC.inside]
        count := trivial
        run := fun t e => by cases e
        done := fun t ht _ hn => h.done t ht (by simp [hpc]) hn
        early := by
          rintro t (ht | e)
          · exact h.early t (.inl ht)
          · cases e
        cnt := by simpa [PC.running] using this.cnt
        ended := this.ended }
  | message hd hpc hm => exact h.move (pc := s.pc) (pend := s.pend) (msgs := s.msgs - 1) (by simp [hpc, PC.running]) (by simp [hpc, PC.running]) rfl (by simp [hpc, Count])
  | quit hd hpc =>
    have := h.move (pc := .peek) (pend := s.pend) (msgs := s.msgs) (by simp [hpc, PC.running]) rfl (by simp [hpc]) trivial
    simp only [hpc, PC.inside, PC.running] at hre hcnt
    exact
      { this with
        reentry := by show s.reentry - 1 = _; simp [PC.inside]; omega
        count := trivial
        run := fun t e => by cases e
        done := fun t ht _ hn => h.done t ht (by simp [hpc]) hn
        early := by
          rintro t (ht | e)
          · exact h.early t (.inl ht)
          · cases e
        cnt := by simpa [PC.running] using this.cnt
        ended := fun e => by
          by_cases hx : (s.stop && decide (s.cnt = 0)) = true
          · simp at hx
            refine ⟨hx.1, ?_, ?_, rfl⟩
            · exact List.eq_nil_of_length_eq_zero (l := s.q) (by omega)
            · exact List.eq_nil_of_length_eq_zero (l := s.thrown) (by omega)
          · simp only [hx] at e
            obtain ⟨a, b, c, _⟩ := h.ended e
            exact ⟨a, b, c, rfl⟩ }
  | noMessage hd hpc hm => exact h.move (pc := .load) (pend := s.pend) (msgs := s.msgs) (by simp [hpc, PC.running]) rfl (by simp [hpc, PC.inside]) trivial
  | load hd hpc =>
    refine h.move (pc := .chk) (msgs := s.msgs) (by simp [hpc, PC.running]) rfl (by simp [hpc, PC.inside]) ?_
    simp only [hpc, PC.running] at hcnt
    simp only [Count]
    exact ⟨by omega, by omega, fun _ => by omega⟩
  | pop t q hd hpc hne hq =>
    simp only [hpc, PC.running, PC.inside] at hre hcnt
    simp only [hpc, Count] at hcount
    have tq : t ∈ s.q := by simp [hq]
    have tn : t ∉ s.taken := fun hx => disj t hx tq
    exact
      { reentry := by simpa [PC.inside] using hre
        cnt := by simp [hq, PC.running] at hcnt ⊢; omega
        posted := by simp [h.posted, hq]
        nodup := h.nodup
        count := by simp [hq] at hcount; simp only [Count]; omega
        run := fun x e => by
          cases e
          exact ⟨by simp, fun hx => tn (h.thrown t hx).1⟩
        done := fun x hx hr hn => by
          simp at hx
          rcases hx with hx | rfl
          · exact h.done x hx (by simp [hpc]) hn
          · simp at hr
        thrown := fun x hx => by
          obtain ⟨a, b⟩ := h.thrown x hx
          exact ⟨List.mem_append_left _ a, b⟩
        thrownNodup := h.thrownNodup
        ok := fun x hx e => by obtain ⟨a, b⟩ := h.ok x hx e; exact ⟨List.mem_append_left _ a, b⟩
        cancelled := h.cancelled
        fresh := h.fresh
        hrc := h.hrc
        early := by
          rintro x (hx | e)
          · exact h.early x (.inl (by simp [hq]; exact .inr hx))
          · cases e; exact h.early t (.inl tq)
        new := h.new
        ended := fun e => by have := (h.ended e).2.1; rw [hq] at this; cases this
        pool := h.pool }
  | idle hd hpc he =>
    refine h.move (pc := .sub) (pend := s.pend) (msgs := s.msgs) (by simp [hpc, PC.running]) rfl (by simp [hpc, PC.inside]) ?_
    simp only [hpc, PC.inside, Count] at hcount hre
    simp only [Count]
    exact fun hq => by rcases hcount.2.2 (by omega) with hm | hm | hm <;> omega
  | done t hd hpc hx =>
    simp only [hpc, PC.running, PC.inside] at hre hcnt
    simp only [hpc, Count] at hcount
    obtain ⟨tt, tnt⟩ := h.run t hpc
    have tp' := tp t tt
    obtain ⟨_, hr0⟩ := h.early t (.inr hpc)
    have ok := run_ok hx
    have ntq : t ∉ s.q := disj t tt
    have hsome : (wakeup (s.hr t) (runTask (s.canceled t) (o t)).wake).isSome := by
      rcases ok with ⟨c, w⟩ | ⟨c, _, w⟩ | ⟨c, _, w⟩
      · -- cancelled: `Cancel` has set the result
        rw [w]
        cases e : s.hr t with
        | some r => rfl
        | none => have := h.hrc t tp' c; rw [e] at this; cases this
      · rw [w]; exact wakeup_isSome _ _
      · rw [w]; exact wakeup_isSome _ _
    exact
      { reentry := by simpa [PC.inside] using hre
        cnt := by simp [PC.running]; omega
        posted := h.posted
        nodup := h.nodup
        count := by simp only [Count]; omega
        run := fun x e => by cases e
        done := fun x hx' _ hn => by
          by_cases e : x = t
          · subst e; simp [hsome]
          · simp only [upd_other _ _ e]
            exact h.done x hx' (by rw [hpc]; intro e'; cases e'; exact e rfl) hn
        thrown := fun x hx' => by
          have : x ≠ t := fun e => tnt (e ▸ hx')
          simp only [upd_other _ _ this]
          exact h.thrown x hx'
        thrownNodup := h.thrownNodup
        ok := fun x hx' e => by
          by_cases ex : x = t
          · subst ex
            simp at e
            rcases wakeup_some e with e | ⟨_, e⟩
            · exact h.ok x hx' e
            · refine ⟨tt, ?_⟩
              rcases ok with ⟨_, w⟩ | ⟨_, r, w⟩ | ⟨_, r, w⟩
              · rw [w] at e; cases e
              · exact r
              · rw [w] at e; cases e
          · simp only [upd_other _ _ ex] at e; exact h.ok x hx' e
        cancelled := fun x hx' e => by
          by_cases ex : x = t
          · subst ex
            simp at e
            rcases wakeup_some e with e | ⟨_, e⟩
            · exact h.cancelled x hx' e
            · rcases ok with ⟨_, w⟩ | ⟨_, r, w⟩ | ⟨_, r, w⟩
              · rw [w] at e; cases e
              · rw [w] at e; cases e
              · exact .inr r
          · simp only [upd_other _ _ ex] at e; exact h.cancelled x hx' e
        fresh := h.fresh
        hrc := fun x hx' hcx => by
          by_cases e : x = t
          · subst e; simp [hsome]
          · simp only [upd_other _ _ e]; exact h.hrc x hx' hcx
        early := by
          rintro x (hx' | e)
          · have : x ≠ t := fun e => ntq (e ▸ hx')
            simp only [upd_other _ _ this]
            exact h.early x (.inl hx')
          · cases e
        new := fun x hx' => by
          have : x ≠ t := fun e => hx' (e ▸ tp')
          simp only [upd_other _ _ this]
          exact h.new x hx'
        ended := fun e => by obtain ⟨a, b, c, d⟩ := h.ended e; exact ⟨a, b, c, rfl⟩
        pool := h.pool }
  | throw t hd hpc hx =>
    obtain ⟨hc, ho⟩ := run_exc hx
    obtain ⟨tt, tnt⟩ := h.run t hpc
    obtain ⟨hf, hr0⟩ := h.early t (.inr hpc)
    cases hpool : pool with
    | true => simpa [hpool] using (hpool ▸ ({ h with } : Inv pool o { s with dead := true }))
    | false =>
      simp only [hpc, PC.running, PC.inside] at hre hcnt
      simp only [Bool.false_eq_true, if_false]
      exact
        { reentry := by simpa [PC.inside] using hre
          cnt := by simp [PC.running]; omega
          posted := h.posted
          nodup := h.nodup
          count := trivial
          run := fun x e => by cases e
          done := fun x hx' _ hn => by
            simp at hn
            exact h.done x hx' (by rw [hpc]; intro e'; cases e'; exact hn.2 rfl) hn.1
          thrown := fun x hx' => by
            simp at hx'
            rcases hx' with hx' | rfl
            · exact h.thrown x hx'
            · exact ⟨tt, ho, hf, hr0⟩
          thrownNodup := by
            rw [List.nodup_append]
            refine ⟨h.thrownNodup, by simp, fun a ha b hb e => ?_⟩
            simp at hb
            exact tnt (hb ▸ e ▸ ha)
          ok := h.ok
          cancelled := h.cancelled
          fresh := h.fresh
          hrc := h.hrc
          early := by
            rintro x (hx' | e)
            · exact h.early x (.inl hx')
            · cases e
          new := h.new
          ended := fun e => by have := (h.ended e).2.2.2; simp [hpc, PC.running] at this
          pool := fun e => by cases e }
  | subNone hd hpc h0 =>
    refine h.move (pc := .timers) (pend := s.pend) (msgs := s.msgs) (by simp [hpc, PC.running]) rfl (by simp [hpc, PC.inside]) ?_
    simp only [hpc, Count] at hcount
    simp only [Count]
    exact ⟨h0, fun hq => by rcases hcount hq with hm | hm <;> omega⟩
  | sub hd hpc h0 =>
    simp only [hpc, PC.running, PC.inside] at hre hcnt
    have nr0 : ∀ t, s.pc ≠ .run t := by simp [hpc]
    have e1 : s.cnt - s.processed = s.thrown.length + s.q.length := by omega
    rw [e1]
    have nr : ∀ t, (if s.thrown.length + s.q.length ≠ 0 ∧ s.reentry ≤ s.thrown.length + s.q.length then PC.peek else .timers) ≠ .run t := by
      intro t; split <;> simp
    have r0 : (if s.thrown.length + s.q.length ≠ 0 ∧ s.reentry ≤ s.thrown.length + s.q.length then PC.peek else .timers).running = 0 := by split <;> rfl
    have i1 : (if s.thrown.length + s.q.length ≠ 0 ∧ s.reentry ≤ s.thrown.length + s.q.length then PC.peek else .timers).inside = 1 := by split <;> rfl
    exact
      { h with
        reentry := by simp only [i1]; exact hre
        cnt := by simp only [r0]; omega
        count := by
          by_cases hx : s.thrown.length + s.q.length ≠ 0 ∧ s.reentry ≤ s.thrown.length + s.q.length
          · simp only [if_pos hx]; trivial
          · simp only [if_neg hx, Count]
            exact ⟨trivial, fun hq => absurd ⟨by omega, by omega⟩ hx⟩
        run := fun t e => absurd e (nr t)
        done := fun t ht _ hn => h.done t ht (nr0 t) hn
        early := by
          rintro t (ht | e)
          · exact h.early t (.inl ht)
          · exact absurd e (nr t)
        ended := fun e => by obtain ⟨a, b, c, _⟩ := h.ended e; exact ⟨a, b, c, r0⟩ }
  | timer x hd hpc => exact { h with }
  | timersEnd hd hpc =>
    refine h.move (pc := .sleep) (pend := s.pend) (msgs := s.msgs) (by simp [hpc, PC.running]) rfl (by simp [hpc, PC.inside]) ?_
    rw [hpc] at hcount
    exact hcount
  | wake hd hpc => exact h.move (pc := .peek) (pend := s.pend) (msgs := s.msgs) (by simp [hpc, PC.running]) rfl (by simp [hpc, PC.inside]) trivial

theorem Inv.start (pool : Bool) (o : Nat → Out) : Inv pool o {} := by
  constructor <;> simp [PC.inside, PC.running, Count]

theorem Inv.reach {pool : Bool} {o : Nat → Out} {s : St} (h : Reach pool o s) : Inv pool o s := by
  induction h with
  | start => exact .start pool o
  | step _ hs ih => exact ih.step hs

theorem Steps.reach {pool : Bool} {o : Nat → Out} {s s' : St} (h : Reach pool o s) (hs : Steps pool o s s') : Reach pool o s' := by
  induction hs with
  | refl => exact h
  | step _ hx ih => exact ih.step hx

theorem thrown_mono {pool : Bool} {o : Nat → Out} {s s' : St} (hs : Steps pool o s s') {t : Nat} (ht : t ∈ s.thrown) : t ∈ s'.thrown := by
  induction hs with
  | refl => exact ht
  | step _ hx ih =>
    cases hx with
    | throw t' hd hpc hx =>
      cases pool
      · exact List.mem_append_left _ ih
      · exact ih
    | _ => exact ih

/-- **C96**, the other tasks. Whatever tasks throw, and however often the user catches the exception and runs the loop again: the tasks are taken in the order of the posts, each once, none is lost
(`posted = taken ++ q`); each task taken, other than the one running and those that have thrown, is finished with a result and released, and its result is the right one. Missing for the full claim:
the tasks that throw, `C96_waiter_fails`. -/
theorem C96_others_partial {pool : Bool} {o : Nat → Out} {s : St} (h : Reach pool o s) :
    s.posted = s.taken ++ s.q ∧ s.posted.Nodup ∧
    (∀ t ∈ s.taken, s.pc = .run t ∨ (t ∈ s.thrown ∧ o t = .other) ∨ (s.freed t = true ∧
      ((s.hr t = some .ok ∧ o t = .ret) ∨ (s.hr t = some .cancelled ∧ (s.canceled t = true ∨ o t = .cancel))))) := by
  have hi := Inv.reach h
  refine ⟨hi.posted, hi.nodup, fun t ht => ?_⟩
  by_cases hr : s.pc = .run t
  · exact .inl hr
  by_cases hx : t ∈ s.thrown
  · exact .inr (.inl ⟨hx, (hi.thrown t hx).2.1⟩)
  obtain ⟨hf, hs⟩ := hi.done t ht hr hx
  have hp : t ∈ s.posted := by rw [hi.posted]; exact List.mem_append_left _ ht
  refine .inr (.inr ⟨hf, ?_⟩)
  cases e : s.hr t with
  | none => rw [e] at hs; cases hs
  | some r =>
    cases r with
    | ok => exact .inl ⟨rfl, (hi.ok t hp e).2⟩
    | cancelled => exact .inr ⟨rfl, hi.cancelled t hp e⟩

/-- **C96**, the loop. However many tasks have thrown before, the loop never sleeps over a waiting task without a wake-up message, and never looks for a task in an empty queue (148: the assertion; in a
release build the thread would spin). -/
theorem C96_loop {pool : Bool} {o : Nat → Out} {s : St} (h : Reach pool o s) :
    (s.pc = .sleep → s.q ≠ [] → 0 < s.msgs) ∧ (s.pc = .chk → s.pend ≠ s.reentry - 1 → s.q ≠ []) := by
  have hi := Inv.reach h
  have hc := hi.count
  constructor
  · intro hpc hq
    rw [hpc] at hc
    exact hc.2 (List.length_pos_iff.mpr hq)
  · intro hpc hne hq
    rw [hpc] at hc
    have hre := hi.reentry
    simp only [Count, hq, List.length_nil] at hc
    simp only [hpc, PC.inside] at hre
    exact hne (by omega)

/-- **C96**, cancellation. If no callback ends with an exception other than `OperationCanceledException`, none ever leaves the loop, and each task taken has a result when it is over. -/
theorem C96_contained {pool : Bool} {o : Nat → Out} (ho : ∀ t, o t ≠ .other) {s : St} (h : Reach pool o s) :
    s.thrown = [] ∧ ∀ t ∈ s.taken, s.pc = .run t ∨ (s.hr t = some .ok ∧ o t = .ret) ∨ (s.hr t = some .cancelled ∧ (s.canceled t = true ∨ o t = .cancel)) := by
  have hi := Inv.reach h
  constructor
  · apply List.eq_nil_iff_forall_not_mem.mpr
    exact fun t ht => ho t (hi.thrown t ht).2.1
  · intro t ht
    rcases (C96_others_partial h).2.2 t ht with a | ⟨a, b⟩ | ⟨_, a⟩
    · exact .inl a
    · exact absurd b (ho t)
    · exact .inr a

/-- **C96**, threads of the pool. No exception is swallowed there: if a task ends with another exception, the process is ended (or the task is still running, or was cancelled before it started). -/
theorem C96_pool {o : Nat → Out} {s : St} (h : Reach true o s) (t : Nat) (ht : t ∈ s.taken) (ho : o t = .other) (hc : s.canceled t = false) :
    s.pc = .run t ∧ s.hr t = none := by
  have hi := Inv.reach h
  have hn := hi.pool rfl
  by_cases hr : s.pc = .run t
  · exact ⟨hr, (hi.early t (.inr hr)).2 hc⟩
  · rcases (C96_others_partial h).2.2 t ht with a | ⟨a, b⟩ | ⟨_, ⟨_, a⟩ | ⟨_, a⟩⟩
    · exact absurd a hr
    · rw [hn] at a; cases a
    · rw [ho] at a; cases a
    · rw [hc, ho] at a; simp at a

/-- **C96, refused tasks.** A task refused by a stopped runner is told so, and is never queued: whoever waits for it is released. -/
theorem C96_refused {pool : Bool} {o : Nat → Out} {s : St} (h : Reach pool o s) : ∀ t ∈ s.rejected, s.hr t = some .cancelled ∧ s.stop = true ∧ t ∉ s.posted := by
  induction h with
  | start => intro t ht; simp at ht
  | step _ hs ih =>
    intro t ht
    cases hs with
    | post u hd hst hu => have := (ih t ht).2.1; rw [hst] at this; cases this
    | refused u hd hst hu =>
      dsimp only at ht ⊢
      by_cases e : t = u
      · subst e; exact ⟨by simp [upd], hst, hu⟩
      · have m := ih t (by simpa [e] using ht)
        exact ⟨by rw [upd_other _ _ e]; exact m.1, m.2⟩
    | cancel u hd hu hc =>
      have m := ih t ht
      have e : t ≠ u := fun e => m.2.2 (e ▸ hu)
      exact ⟨by dsimp only; rw [upd_other _ _ e]; exact m.1, m.2⟩
    | done u hd hp hx =>
      have m := ih t ht
      dsimp only
      refine ⟨?_, m.2⟩
      by_cases e : t = u
      · subst e; simp [upd, m.1, wakeup]
      · rw [upd_other _ _ e]; exact m.1
    | throw u hd hp hx => cases pool <;> exact ih t ht
    | join => exact ⟨(ih t ht).1, rfl, (ih t ht).2.2⟩
    | _ => exact ih t ht

/-- **C96, timers.** An exception of a timer's callback (other than the cancellation) is not swallowed: `ProcessingTimerTasks` is `noexcept`, the process ends. -/
theorem C96_timer {pool : Bool} {o : Nat → Out} {s : St} (h : Reach pool o s) : s.timerExc = true → s.dead = true := by
  induction h with
  | start => intro t; simp at t
  | step _ hs ih =>
    intro ht
    cases hs with
    | timer x hd hp =>
      dsimp only at ht ⊢
      cases ht2 : (St.timerExc _) with
      | true => rw [ih ht2] at hd; cases hd
      | false =>
        rw [ht2] at ht
        simp at ht; subst ht; rfl
    | throw u hd hp hx => cases pool <;> (have m := ih ht; rw [m] at hd; cases hd)
    | _ => first | exact ih ht | (have := ih ht; simp_all)

/-- a task is refused after `Join`, a timer of another run throws -/
theorem C96_refused_example : (∃ s, Reach false (fun _ => .ret) s ∧ 0 ∈ s.rejected) ∧ (∃ s, Reach false (fun _ => .ret) s ∧ s.timerExc = true) := by
  refine ⟨⟨_, .step (.step .start (.join _ rfl)) (.refused _ 0 rfl rfl (by simp)), by simp⟩, ⟨_, .step (.step (.step (.step (.step (.step .start (.enter _ rfl rfl)) (.noMessage _ rfl rfl rfl)) (.load _ rfl rfl)) (.idle _ rfl rfl rfl)) (.subNone _ rfl rfl rfl)) (.timer _ .other rfl rfl), by simp⟩⟩

/-- **C96** fails for the task that throws: on a bound thread its `Wakeup` is skipped for ever and the queue's reference is never released. A thread waiting for it (`WaitTask`, `SendTask`, C66) waits
for ever, unless somebody else cancels the task. -/
theorem C96_waiter_fails {o : Nat → Out} {s : St} (h : Reach false o s) {t : Nat} (ht : t ∈ s.thrown) {s' : St} (hs : Steps false o s s') :
    s'.freed t = false ∧ (s'.canceled t = false → s'.hr t = none) := by
  have hi := Inv.reach (Steps.reach h hs)
  obtain ⟨_, _, a, b⟩ := hi.thrown t (thrown_mono hs ht)
  exact ⟨a, b⟩

/-- **C96** fails for `Join`: once a task has thrown, `uWakeupCount` never returns to 0, the word never becomes `TerminateTaskRunnerRaw` by the end of a loop, and `Join` waits until its time-out (or for
ever), although no task is left. -/
theorem C96_join_fails {o : Nat → Out} {s : St} (h : Reach false o s) {t : Nat} (ht : t ∈ s.thrown) {s' : St} (hs : Steps false o s s') : 0 < s'.cnt ∧ s'.ended = false := by
  have hi := Inv.reach (Steps.reach h hs)
  have hm := thrown_mono hs ht
  have hc := hi.cnt
  have hl : 0 < s'.thrown.length := List.length_pos_of_mem hm
  refine ⟨by omega, ?_⟩
  cases e : s'.ended with
  | false => rfl
  | true => rw [(hi.ended e).2.2.1] at hm; cases hm

/-! ### A case: three tasks, the second throws -/

def demo : Nat → Out := fun t => if t = 1 then .other else .ret

/-- the exception of task 1 leaves the loop -/
theorem demo_thrown : ∃ s, Reach false demo s ∧ s.pc = .out ∧ s.q = [2] ∧ s.taken = [0, 1] ∧ s.thrown = [1] ∧ s.cnt = 3 ∧ s.processed = 1 ∧ s.reentry = 1 ∧ s.dead = false ∧ s.msgs = 0 ∧
    s.hr 0 = some .ok ∧ s.canceled 2 = false ∧ s.canceled 1 = false ∧ s.stop = false := by
  have h1 := Reach.step (Reach.start (pool := false) (o := demo)) (.post _ 0 rfl rfl (by simp))
  have h2 := Reach.step h1 (.post _ 1 rfl rfl (by simp))
  have h3 := Reach.step h2 (.post _ 2 rfl rfl (by simp))
  have h4 := Reach.step h3 (.enter _ rfl rfl)
  have h5 := Reach.step h4 (.message _ rfl rfl (by decide))
  have h6 := Reach.step h5 (.noMessage _ rfl rfl (by decide))
  have h7 := Reach.step h6 (.load _ rfl rfl)
  have h8 := Reach.step h7 (.pop _ 0 [1, 2] rfl rfl (by decide) rfl)
  have h9 := Reach.step h8 (.done _ 0 rfl rfl rfl)
  have h10 := Reach.step h9 (.pop _ 1 [2] rfl rfl (by decide) rfl)
  have h11 := Reach.step h10 (.throw _ 1 rfl rfl rfl)
  exact ⟨_, h11, rfl, rfl, rfl, rfl, rfl, rfl, rfl, rfl, rfl, rfl, rfl, rfl, rfl⟩

/-- The user catches the exception and runs the loop again: task 2 runs, then the loop sleeps; the waiters of task 1 wait, the count stays 1. -/
theorem C96_example : ∃ s, Reach false demo s ∧ s.pc = .sleep ∧ s.q = [] ∧ s.taken = [0, 1, 2] ∧ s.thrown = [1] ∧ s.hr 0 = some .ok ∧ s.hr 1 = none ∧ s.hr 2 = some .ok ∧ s.cnt = 1 ∧ s.stop = false := by
  obtain ⟨s, h, hpc, hq, ht, hth, hc, hp, hre, hd, hm, h0, hc2, hc1, hst⟩ := demo_thrown
  have h1 := Reach.step h (.enter _ hd hpc)
  have h2 := Reach.step h1 (.noMessage _ hd rfl hm)
  have h3 := Reach.step h2 (.load _ hd rfl)
  simp only [hc, hp, hre] at h3
  have h4 := Reach.step h3 (.pop _ 2 [] hd rfl (by simp) hq)
  have h5 := Reach.step h4 (.done _ 2 hd rfl (by simp [hc2, demo, runTask]))
  have h6 := Reach.step h5 (.idle _ hd rfl (by simp))
  have h7 := Reach.step h6 (.sub _ hd rfl (by simp))
  have h8 := Reach.step h7 (.timersEnd _ hd (by simp))
  refine ⟨_, h8, rfl, rfl, by simp [ht], hth, ?_, ?_, ?_, by simp, hst⟩
  · show upd s.hr 2 (wakeup (s.hr 2) (runTask (s.canceled 2) (demo 2)).wake) 0 = _
    rw [upd_other _ _ (by decide)]
    exact h0
  · show upd s.hr 2 (wakeup (s.hr 2) (runTask (s.canceled 2) (demo 2)).wake) 1 = _
    rw [upd_other _ _ (by decide)]
    exact ((Inv.reach h).thrown 1 (by simp [hth])).2.2.2 hc1
  · have : s.hr 2 = none := ((Inv.reach h).early 2 (.inl (by simp [hq]))).2 hc2
    refine (upd_same s.hr 2 _).trans ?_
    show wakeup (s.hr 2) (runTask (s.canceled 2) (demo 2)).wake = _
    rw [this, hc2]
    rfl

end Verif.Throw
