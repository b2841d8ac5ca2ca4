import Verif.Coro.Model

/-! # Coroutines (C78) -/
namespace Verif.Coro
open Verif.Common

/-- a registration of the coroutine with an operation -/
def tokOf (o : Op) : Nat := o.listed.toNat + o.held.toNat

def runs (s : St) : Nat := if s.run = .idle then 0 else 1

/-- registrations and closures that may still resume the coroutine, and lost ones -/
def pending (s : St) : Nat := sumBy tokOf s.ops + s.queue.length + s.lost

/-- an operation and its awaiter -/
def opOk (c : Option Nat) (o : Op) : Prop :=
  (o.kind = none ↔ o.stage = .started) ∧ (o.held = true → o.stage = .swapped ∧ o.listed = false) ∧ (o.listed = true → o.stage ≠ .swapped) ∧
    (c ≠ none → o.home = c)

/-- does the outcome fit the operation? -/
def fits (sp : Bool) (o : Op) : Outcome → Prop
  | .val v => o.kind = some (.val v)
  | .exc x => o.kind = some (.exc x)
  | .canceled => o.kind = some .canceled ∨ o.token = true
  | .failed => sp = true ∨ o.kind = some .canceled ∨ o.token = true
  | .garbage => sp = true

structure Inv (sp : Bool) (c : Option Nat) (s : St) : Prop where
  good : s.bad = false
  tok : pending s + runs s = if s.frame = .live then 1 else 0
  count : s.suspends = s.resumes + pending s + if s.frame = .destroyed then 1 else 0
  awaiting : s.run ≠ .idle → s.run ≠ .body → s.ops ≠ []
  susp : 0 < s.suspends → s.ops ≠ []
  ops : ∀ (i : Nat) o, s.ops[i]? = some o → opOk c o
  atp : c ≠ none → s.run ≠ .idle → s.at_ = c
  queue : c ≠ none → ∀ r ∈ s.queue, c = some r
  fin : sp = false → s.run = .get3 → ∀ o, s.ops[cur s]? = some o → o.stage = .published ∨ o.stage = .swapped
  log : ∀ e ∈ s.log, ∃ o, s.ops[e.1]? = some o ∧ fits sp o e.2
  own : (s.frame = .ended → s.own ≠ none) ∧ (s.frame ≠ .ended → s.own = none ∨ s.own = some .canceled)
  lostp : 0 < s.lost → ∃ r, s.stopped r = true ∧ (c = none ∨ c = some r)
  destp : s.frame = .destroyed → ∃ r, s.dead r = true ∧ (c = none ∨ c = some r)

theorem inv_init (sp c) : Inv sp c { at_ := c } := by
  constructor <;> simp [pending, runs]

/-- updating one operation -/
theorem Inv.setOp {sp c s} (hi : Inv sp c s) {i : Nat} {o o' : Op} (ho : s.ops[i]? = some o) (ht : tokOf o' = tokOf o)
    (hok : opOk c o') (hst : (o.stage = .published ∨ o.stage = .swapped) → (o'.stage = .published ∨ o'.stage = .swapped))
    (hfit : ∀ r, fits sp o r → fits sp o' r) : Inv sp c (setOp s i o') := by
  have hs := sumBy_set tokOf s.ops i o' o ho
  have hp : pending (Coro.setOp s i o') = pending s := by simp only [pending, Coro.setOp]; omega
  have hil : i < s.ops.length := by rcases Nat.lt_or_ge i s.ops.length with h | h
                                    · exact h
                                    · rw [List.getElem?_eq_none h] at ho; cases ho
  constructor
  · exact hi.good
  · rw [hp]; exact hi.tok
  · rw [hp]; exact hi.count
  · intro a b
    have := hi.awaiting a b
    simp only [Coro.setOp]
    intro h
    apply this
    have := congrArg List.length h
    simp at this
    exact this
  · intro a
    have := hi.susp a
    simp only [Coro.setOp]
    intro h
    apply this
    have := congrArg List.length h
    simp at this
    exact this
  · intro j q hj
    simp only [Coro.setOp] at hj
    rw [List.getElem?_set] at hj
    split at hj
    · simp [hil] at hj; subst hj; exact hok
    · exact hi.ops j q hj
  · exact hi.atp
  · exact hi.queue
  · intro h1 h2 q hq
    have hc : cur (Coro.setOp s i o') = cur s := by simp [cur, Coro.setOp]
    rw [hc] at hq
    simp only [Coro.setOp] at hq
    rw [List.getElem?_set] at hq
    split at hq
    · rename_i e
      simp [hil] at hq; subst hq
      exact hst (hi.fin h1 h2 o (e ▸ ho))
    · exact hi.fin h1 h2 q hq
  · intro e he
    obtain ⟨q, hq, hf⟩ := hi.log e he
    simp only [Coro.setOp]
    rw [List.getElem?_set]
    by_cases hei : i = e.1
    · subst hei
      rw [ho] at hq; cases hq
      exact ⟨o', by simp [hil], hfit _ hf⟩
    · exact ⟨q, by simp [hei, hq], hf⟩
  · exact hi.own
  · exact hi.lostp
  · exact hi.destp

/-- the frame's own code goes on -/
theorem Inv.run {sp c s} (hi : Inv sp c s) (r : Run) (h0 : s.run ≠ .idle) (hb : s.run ≠ .body) (hr : r ≠ .idle) (h3 : r ≠ .get3) : Inv sp c { s with run := r } := by
  have hrun : runs { s with run := r } = runs s := by simp [runs, h0, hr]
  constructor
  · exact hi.good
  · rw [hrun]; exact hi.tok
  · exact hi.count
  · intro _ _; exact hi.awaiting h0 hb
  · exact hi.susp
  · exact hi.ops
  · intro h _; exact hi.atp h h0
  · exact hi.queue
  · intro _ h; exact absurd h h3
  · exact hi.log
  · exact hi.own
  · exact hi.lostp
  · exact hi.destp

theorem Inv.give {sp c s} (hi : Inv sp c s) {o : Op} (h0 : s.run ≠ .idle) (ho : s.ops[cur s]? = some o) {r : Outcome} (hf : fits sp o r) : Inv sp c (give s r) := by
  have hrun : runs (Coro.give s r) = runs s := by simp [runs, h0, Coro.give]
  constructor
  · exact hi.good
  · rw [hrun]; exact hi.tok
  · exact hi.count
  · intro _ h; exact absurd rfl h
  · exact hi.susp
  · exact hi.ops
  · intro h _; exact hi.atp h h0
  · exact hi.queue
  · intro _ h; cases h
  · intro e he
    simp only [Coro.give, List.mem_append, List.mem_singleton] at he
    rcases he with he | he
    · exact hi.log e he
    · subst he; exact ⟨o, ho, hf⟩
  · exact hi.own
  · exact hi.lostp
  · exact hi.destp

/-- taking one registration or closure away and resuming -/
theorem Inv.resume {sp c s s'} (hi : Inv sp c s) (hp : pending s' + 1 = pending s) (d : Option Nat) (hd : c ≠ none → d = c)
    (h1 : s'.bad = s.bad) (h2 : s'.frame = s.frame) (h3 : s'.run = s.run) (h4 : s'.suspends = s.suspends) (h5 : s'.resumes = s.resumes)
    (h6 : ∀ (i : Nat) o, s'.ops[i]? = some o → opOk c o) (h7 : s'.ops.length = s.ops.length) (h8 : ∀ r ∈ s'.queue, r ∈ s.queue)
    (h9 : s'.log = s.log) (h10 : ∀ e ∈ s.log, ∃ o, s'.ops[e.1]? = some o ∧ fits sp o e.2) (h11 : s'.own = s.own) (h12 : s'.lost = s.lost)
    (h13 : s'.stopped = s.stopped) (h14 : s'.dead = s.dead) (hne : s.ops ≠ []) : Inv sp c (resume s' d) := by
  have ht := hi.tok
  have hlive : s.frame = .live := by
    by_cases hl : s.frame = .live
    · exact hl
    · simp [hl] at ht; omega
  simp only [hlive] at ht
  have hidle : s.run = .idle := by
    by_cases hl : s.run = .idle
    · exact hl
    · simp [runs, hl] at ht; omega
  have hc := hi.count
  simp only [hlive] at hc
  rw [Coro.resume, if_pos ⟨by rw [h2]; exact hlive, by rw [h3]; exact hidle⟩]
  constructor
  · exact h1.trans hi.good
  · show pending s' + 1 = _
    simp only [h2, hlive]
    simp [runs, hidle] at ht
    simp; omega
  · show s'.suspends = s'.resumes + 1 + pending s' + _
    simp only [h2, hlive]
    simp at hc ⊢
    omega
  · intro _ _ h
    apply hne
    have : s'.ops.length = 0 := by simp only at h; simp [h]
    exact List.length_eq_zero_iff.1 (by omega)
  · intro _ h
    apply hne
    have : s'.ops.length = 0 := by simp only at h; simp [h]
    exact List.length_eq_zero_iff.1 (by omega)
  · exact h6
  · intro h _; exact hd h
  · intro h r hr; exact hi.queue h r (h8 r hr)
  · intro _ h; cases h
  · intro e he; exact h10 e (by rw [← h9]; exact he)
  · simp only [h2, h11]; exact hi.own
  · simp only [h12, h13]; exact hi.lostp
  · simp only [h2, h14]; exact hi.destp

theorem fits_mono {sp : Bool} {o o' : Op} (hk : o.kind ≠ none → o'.kind = o.kind) (ht : o.token = true → o'.token = true) : ∀ r, fits sp o r → fits sp o' r := by
  intro r h
  cases r with
  | val v => exact (hk (by rw [show o.kind = _ from h]; simp)).trans h
  | exc v => exact (hk (by rw [show o.kind = _ from h]; simp)).trans h
  | canceled =>
    rcases h with h | h
    · exact .inl ((hk (by rw [h]; simp)).trans h)
    · exact .inr (ht h)
  | failed =>
    rcases h with h | h | h
    · exact .inl h
    · exact .inr (.inl ((hk (by rw [h]; simp)).trans h))
    · exact .inr (.inr (ht h))
  | garbage => exact h

theorem isCanceled_iff {o : Op} (h : o.isCanceled = true) : o.kind = some .canceled ∨ o.token = true := by
  unfold Op.isCanceled at h
  split at h
  · cases h
  · exact .inl ‹_›
  · exact .inr h

theorem outcome_fits {sp : Bool} {c o} (ho : opOk c o) (hs : sp = false → o.stage = .published ∨ o.stage = .swapped) : fits sp o (outcome o) := by
  obtain ⟨k, st, tk, l, hd, pl, hm⟩ := o
  cases sp with
  | true => cases k with
    | none => simp [outcome, fits]
    | some k => cases k <;> cases st <;> simp [outcome, fits]
  | false =>
    have h1 := ho.1
    cases k with
    | none => simp_all
    | some k => cases k <;> cases st <;> simp_all [outcome, fits]

theorem inv_step {sp c s t} (hi : Inv sp c s) (h : Step sp s t) : Inv sp c t := by
  cases h with
  | await hb =>
    have hne : s.run ≠ .idle := by rw [hb]; simp
    have hp : pending { s with run := .ready, ops := s.ops ++ [{ home := s.at_ }] } = pending s := by
      simp [pending, sumBy_append, tokOf]
    have hrun : runs { s with run := .ready, ops := s.ops ++ [{ home := s.at_ }] } = runs s := by simp [runs, hne]
    constructor
    · exact hi.good
    · rw [hp, hrun]; exact hi.tok
    · rw [hp]; exact hi.count
    · intro _ _; simp
    · intro _; simp
    · intro i o ho
      simp only at ho
      rw [List.getElem?_append] at ho
      split at ho
      · exact hi.ops i o ho
      · rw [List.getElem?_singleton] at ho
        split at ho
        · cases ho
          exact ⟨by simp, by simp, by simp, fun h => hi.atp h hne⟩
        · cases ho
    · intro h _; exact hi.atp h hne
    · exact hi.queue
    · intro _ h; cases h
    · intro e he
      obtain ⟨o, ho, hf⟩ := hi.log e he
      refine ⟨o, ?_, hf⟩
      have : e.1 < s.ops.length := by
        rcases Nat.lt_or_ge e.1 s.ops.length with h | h
        · exact h
        · rw [List.getElem?_eq_none h] at ho; cases ho
      simp only
      rw [List.getElem?_append_left this]; exact ho
    · exact hi.own
    · exact hi.lostp
    · exact hi.destp
  | ready hr ho => exact hi.run _ (by rw [hr]; simp) (by rw [hr]; simp) (by split <;> simp) (by split <;> simp)
  | check hr ho => exact hi.run _ (by rw [hr]; simp) (by rw [hr]; simp) (by split <;> simp) (by split <;> simp)
  | addNo hr ho hk => exact hi.run _ (by rw [hr]; simp) (by rw [hr]; simp) (by simp) (by simp)
  | @addYes o hr ho hk =>
    have hok := hi.ops _ _ ho
    have hst := hok.1.1 hk
    have hl : o.listed = false := by
      have ht := hi.tok
      have := le_sumBy tokOf s.ops _ o ho
      cases hl : o.listed with
      | false => rfl
      | true =>
        simp only [tokOf, hl, Bool.toNat_true] at this
        have hrn : runs s = 1 := by simp [runs, hr]
        have hle : (if s.frame = .live then 1 else 0) ≤ 1 := by split <;> omega
        simp only [pending] at ht
        omega
    have hh : o.held = false := by
      cases hh : o.held with
      | false => rfl
      | true => have := (hok.2.1 hh).1; rw [hst] at this; cases this
    have hsum := sumBy_set tokOf s.ops (cur s) { o with listed := true } o ho
    have e1 : tokOf { o with listed := true } = 1 := by simp [tokOf, hh]
    have e2 : tokOf o = 0 := by simp [tokOf, hh, hl]
    rw [e1, e2] at hsum
    have ht := hi.tok
    have hc := hi.count
    have hil : cur s < s.ops.length := by
      rcases Nat.lt_or_ge (cur s) s.ops.length with h | h
      · exact h
      · rw [List.getElem?_eq_none h] at ho; cases ho
    constructor
    · exact hi.good
    · show sumBy tokOf (s.ops.set (cur s) { o with listed := true }) + s.queue.length + s.lost + 0 = if s.frame = .live then 1 else 0
      have hrn : runs s = 1 := by simp [runs, hr]
      simp only [pending] at ht
      generalize (if s.frame = .live then 1 else 0) = z at *
      omega
    · show s.suspends + 1 = s.resumes + (sumBy tokOf (s.ops.set (cur s) { o with listed := true }) + s.queue.length + s.lost) + if s.frame = .destroyed then 1 else 0
      simp only [pending] at hc
      generalize (if s.frame = .destroyed then 1 else 0) = z at *
      omega
    · intro h; exact absurd rfl h
    · intro _ h
      have := congrArg List.length h
      simp [Coro.setOp] at this
      simp [this] at hil
    · intro j q hj
      simp only [Coro.setOp] at hj
      rw [List.getElem?_set] at hj
      split at hj
      · simp [hil] at hj; subst hj
        exact ⟨hok.1, by simp [hh], by simp [hst], hok.2.2.2⟩
      · exact hi.ops j q hj
    · intro _ h; exact absurd rfl h
    · exact hi.queue
    · intro _ h; cases h
    · intro e he
      obtain ⟨q, hq, hf⟩ := hi.log e he
      simp only [Coro.setOp]
      rw [List.getElem?_set]
      by_cases hei : cur s = e.1
      · rw [hei] at ho hil ⊢
        rw [ho] at hq; cases hq
        exact ⟨{ o with listed := true }, by simp [hil], fits_mono (fun _ => rfl) (fun h => h) _ hf⟩
      · exact ⟨q, by simp [hei, hq], hf⟩
    · exact hi.own
    · exact hi.lostp
    · exact hi.destp
  | @get0 o hr ho =>
    split
    · rename_i hc
      exact hi.give (by rw [hr]; simp) ho (isCanceled_iff hc)
    · exact hi.run _ (by rw [hr]; simp) (by rw [hr]; simp) (by simp) (by simp)
  | @get1 o hr ho =>
    split
    · rename_i hc
      exact hi.give (by rw [hr]; simp) ho (.inr (isCanceled_iff hc))
    · exact hi.run _ (by rw [hr]; simp) (by rw [hr]; simp) (by simp) (by simp)
  | @get2 o hr ho hw =>
    have h0 : s.run ≠ .idle := by rw [hr]; simp
    have hrun : runs { s with run := .get3 } = runs s := by simp [runs, h0]
    constructor
    · exact hi.good
    · rw [hrun]; exact hi.tok
    · exact hi.count
    · intro _ _; exact hi.awaiting h0 (by rw [hr]; simp)
    · exact hi.susp
    · exact hi.ops
    · intro h _; exact hi.atp h h0
    · exact hi.queue
    · intro hsp _ q hq
      have hq' : s.ops[cur s]? = some q := hq
      rw [ho] at hq'; cases hq'
      rcases hw with h | h | h
      · exact .inl h
      · exact .inr h
      · rw [hsp] at h; cases h
    · exact hi.log
    · exact hi.own
    · exact hi.lostp
    · exact hi.destp
  | @get3 o hr ho =>
    exact hi.give (by rw [hr]; simp) ho (outcome_fits (hi.ops _ _ ho) (fun h => hi.fin h hr o ho))
  | finish k hb hk =>
    have ht := hi.tok
    have hlive : s.frame = .live := by
      by_cases hl : s.frame = .live
      · exact hl
      · simp [hl, runs, hb] at ht
    have hc := hi.count
    simp only [runs, hb, hlive] at ht hc
    simp at ht hc
    constructor
    · exact hi.good
    · simp only [runs]
      show pending s + 0 = 0
      omega
    · show s.suspends = s.resumes + pending s + 0
      omega
    · intro h; exact absurd rfl h
    · exact hi.susp
    · exact hi.ops
    · intro _ h; exact absurd rfl h
    · exact hi.queue
    · intro _ h; cases h
    · exact hi.log
    · exact ⟨fun _ => by cases s.own <;> simp, fun h => absurd rfl h⟩
    · exact hi.lostp
    · intro h; cases h
  | cancel ho =>
    refine ⟨hi.good, hi.tok, hi.count, hi.awaiting, hi.susp, hi.ops, hi.atp, hi.queue, hi.fin, hi.log, ⟨fun _ => by simp, fun _ => .inr rfl⟩, hi.lostp, hi.destp⟩
  | @win i o k d ho hk =>
    have hok := hi.ops _ _ ho
    have hst := hok.1.1 hk
    refine hi.setOp ho rfl ⟨by simp, ?_, by simp, hok.2.2.2⟩ (by rw [hst]; simp) (fits_mono (fun h => absurd hk h) (fun h => h))
    intro h
    have := (hok.2.1 h).1
    rw [hst] at this; cases this
  | @write i o ho hs =>
    have hok := hi.ops _ _ ho
    have hk : o.kind ≠ none := by intro h; have := hok.1.1 h; rw [hs] at this; cases this
    refine hi.setOp ho rfl ⟨by simp [hk], ?_, by simp, hok.2.2.2⟩ (by rw [hs]; simp) (fits_mono (fun _ => rfl) (fun h => h))
    intro h
    have := (hok.2.1 h).1
    rw [hs] at this; cases this
  | @publish i o ho hs =>
    have hok := hi.ops _ _ ho
    have hk : o.kind ≠ none := by intro h; have := hok.1.1 h; rw [hs] at this; cases this
    refine hi.setOp ho rfl ⟨by simp [hk], ?_, by simp, hok.2.2.2⟩ (by simp) (fits_mono (fun _ => rfl) (fun h => h))
    intro h
    have := (hok.2.1 h).1
    rw [hs] at this; cases this
  | @swap i o ho hs =>
    have hok := hi.ops _ _ ho
    have hk : o.kind ≠ none := by intro h; have := hok.1.1 h; rw [hs] at this; cases this
    have hh : o.held = false := by
      cases hh : o.held with
      | false => rfl
      | true => have := (hok.2.1 hh).1; rw [hs] at this; cases this
    exact hi.setOp ho (by simp [tokOf, hh]) ⟨by simp [hk], by simp, by simp, hok.2.2.2⟩ (by simp) (fits_mono (fun _ => rfl) (fun h => h))
  | @token i o ho =>
    have hok := hi.ops _ _ ho
    exact hi.setOp ho rfl ⟨hok.1, hok.2.1, hok.2.2.1, hok.2.2.2⟩ (fun h => h) (fits_mono (fun _ => rfl) (fun _ => rfl))
  | @notify i o ho hh =>
    have hok := hi.ops _ _ ho
    have hsum := sumBy_set tokOf s.ops i { o with held := false } o ho
    have e1 : tokOf { o with held := false } = 0 := by simp [tokOf, (hok.2.1 hh).2]
    have e2 : tokOf o = 1 := by simp [tokOf, (hok.2.1 hh).2, hh]
    rw [e1, e2] at hsum
    have hil : i < s.ops.length := by
      rcases Nat.lt_or_ge i s.ops.length with h | h
      · exact h
      · rw [List.getElem?_eq_none h] at ho; cases ho
    have hne : s.ops ≠ [] := by intro h; simp [h] at hil
    have ht := hi.tok
    have hc := hi.count
    have hp : pending (Coro.setOp s i { o with held := false }) + 1 = pending s := by
      simp only [pending, Coro.setOp]; omega
    have hlive : s.frame = .live := by
      by_cases hl : s.frame = .live
      · exact hl
      · simp [hl] at ht; omega
    have hidle : s.run = .idle := by
      by_cases hl : s.run = .idle
      · exact hl
      · simp [runs, hl, hlive] at ht; omega
    have hops : ∀ (j : Nat) q, (s.ops.set i { o with held := false })[j]? = some q → opOk c q := by
      intro j q hj
      rw [List.getElem?_set] at hj
      split at hj
      · simp [hil] at hj; subst hj
        exact ⟨hok.1, by simp, hok.2.2.1, hok.2.2.2⟩
      · exact hi.ops j q hj
    have hlog : ∀ e ∈ s.log, ∃ q, (s.ops.set i { o with held := false })[e.1]? = some q ∧ fits sp q e.2 := by
      intro e he
      obtain ⟨q, hq, hf⟩ := hi.log e he
      rw [List.getElem?_set]
      by_cases hei : i = e.1
      · subst hei
        rw [ho] at hq; cases hq
        exact ⟨{ o with held := false }, by simp [hil], fits_mono (fun _ => rfl) (fun h => h) _ hf⟩
      · exact ⟨q, by simp [hei, hq], hf⟩
    have hres : ∀ d : Option Nat, (c ≠ none → d = c) → Inv sp c (Coro.resume (Coro.setOp s i { o with held := false }) d) := fun d hd =>
      hi.resume hp d hd rfl rfl rfl rfl rfl hops (by simp [Coro.setOp]) (fun r h => h) rfl hlog rfl rfl rfl rfl hne
    generalize ({ o with held := false } : Op) = w at *
    rw [onCompleted, if_neg (by simpa [Coro.setOp] using hlive)]
    cases hho : o.home with
    | none =>
      refine hres o.place (fun h => ?_)
      have := hok.2.2.2 h
      rw [hho] at this
      exact absurd this.symm h
    | some r =>
      have hcr : c = none ∨ c = some r := by
        cases c with
        | none => exact .inl rfl
        | some x => have := hok.2.2.2 (by simp); rw [hho] at this; exact .inr this.symm
      dsimp only
      simp only [runs, hidle, hlive] at ht hc
      simp at ht hc
      split
      · rename_i hd
        constructor
        · exact hi.good
        · show pending (Coro.setOp s i w) + runs s = 0
          simp only [runs, hidle]; simp; omega
        · show s.suspends = s.resumes + pending (Coro.setOp s i w) + 1
          omega
        · intro h; exact absurd hidle h
        · intro _ h; have := congrArg List.length h; simp [Coro.setOp] at this; exact hne this
        · exact hops
        · intro _ h; exact absurd hidle h
        · exact hi.queue
        · intro _ h; rw [show s.run = .get3 from h] at hidle; cases hidle
        · exact hlog
        · exact ⟨(fun h => by cases h), fun _ => hi.own.2 (by rw [hlive]; simp)⟩
        · exact hi.lostp
        · intro _; exact ⟨r, hd, hcr⟩
      · split
        · rename_i hpl
          refine hres o.place (fun h => ?_)
          rcases hcr with h1 | h1
          · exact absurd h1 h
          · rw [h1]; exact hpl
        · split
          · rename_i hst
            constructor
            · exact hi.good
            · show sumBy tokOf (s.ops.set i w) + s.queue.length + (s.lost + 1) + runs s = if s.frame = .live then 1 else 0
              simp only [runs, hidle, hlive]
              simp only [pending, Coro.setOp] at hp ht; simp; omega
            · show s.suspends = s.resumes + (sumBy tokOf (s.ops.set i w) + s.queue.length + (s.lost + 1)) + if s.frame = .destroyed then 1 else 0
              simp only [hlive]
              simp only [pending, Coro.setOp] at hp hc; simp; omega
            · intro h; exact absurd hidle h
            · intro _ h; have := congrArg List.length h; simp [Coro.setOp] at this; exact hne this
            · exact hops
            · intro _ h; exact absurd hidle h
            · exact hi.queue
            · intro _ h; rw [show s.run = .get3 from h] at hidle; cases hidle
            · exact hlog
            · exact hi.own
            · intro _; exact ⟨r, hst, hcr⟩
            · exact hi.destp
          · constructor
            · exact hi.good
            · show sumBy tokOf (s.ops.set i w) + (s.queue.length + 1) + s.lost + runs s = if s.frame = .live then 1 else 0
              simp only [runs, hidle, hlive]
              simp only [pending, Coro.setOp] at hp ht; simp; omega
            · show s.suspends = s.resumes + (sumBy tokOf (s.ops.set i w) + (s.queue.length + 1) + s.lost) + if s.frame = .destroyed then 1 else 0
              simp only [hlive]
              simp only [pending, Coro.setOp] at hp hc; simp; omega
            · intro h; exact absurd hidle h
            · intro _ h; have := congrArg List.length h; simp [Coro.setOp] at this; exact hne this
            · exact hops
            · intro _ h; exact absurd hidle h
            · intro h x hx
              rcases List.mem_cons.1 hx with hx | hx
              · subst hx
                rcases hcr with h1 | h1
                · exact absurd h1 h
                · exact h1
              · exact hi.queue h x hx
            · intro _ h; rw [show s.run = .get3 from h] at hidle; cases hidle
            · exact hlog
            · exact hi.own
            · exact hi.lostp
            · exact hi.destp
  | @exec q1 r q2 hq =>
    have hl : s.queue.length = q1.length + (q2.length + 1) := by rw [hq]; simp
    have ht := hi.tok
    have hmem : r ∈ s.queue := by rw [hq]; simp
    have hne : s.ops ≠ [] := by
      apply hi.susp
      have hc := hi.count
      simp only [pending] at hc
      omega
    refine hi.resume (s' := { s with queue := q1 ++ q2 }) ?_ (some r) (fun h => (hi.queue h r hmem).symm) rfl rfl rfl rfl rfl hi.ops rfl ?_ rfl hi.log rfl rfl rfl rfl hne
    · simp only [pending, List.length_append]; omega
    · intro x hx
      rw [hq]
      simp only [List.mem_append, List.mem_cons] at hx ⊢
      rcases hx with h | h
      · exact .inl h
      · exact .inr (.inr h)
  | @drop q1 r q2 hq hs =>
    have hl : s.queue.length = q1.length + (q2.length + 1) := by rw [hq]; simp
    have hmem : r ∈ s.queue := by rw [hq]; simp
    have hp : pending { s with queue := q1 ++ q2, lost := s.lost + 1 } = pending s := by
      simp only [pending, List.length_append]; omega
    have ht := hi.tok
    have hc := hi.count
    refine ⟨hi.good, by rw [hp]; exact ht, by rw [hp]; exact hc, hi.awaiting, hi.susp, hi.ops, hi.atp, ?_, hi.fin, hi.log, hi.own, ?_, hi.destp⟩
    · intro h x hx
      refine hi.queue h x ?_
      rw [hq]
      simp only [List.mem_append, List.mem_cons] at hx ⊢
      rcases hx with h | h
      · exact .inl h
      · exact .inr (.inr h)
    · intro _
      refine ⟨r, hs, ?_⟩
      cases c with
      | none => exact .inl rfl
      | some y => exact .inr (hi.queue (by simp) r hmem)
  | stop r =>
    refine ⟨hi.good, hi.tok, hi.count, hi.awaiting, hi.susp, hi.ops, hi.atp, hi.queue, hi.fin, hi.log, hi.own, ?_, hi.destp⟩
    intro h
    obtain ⟨x, hx, hc⟩ := hi.lostp h
    exact ⟨x, by simp [hx], hc⟩
  | die r =>
    refine ⟨hi.good, hi.tok, hi.count, hi.awaiting, hi.susp, hi.ops, hi.atp, hi.queue, hi.fin, hi.log, hi.own, hi.lostp, ?_⟩
    intro h
    obtain ⟨x, hx, hc⟩ := hi.destp h
    exact ⟨x, by simp [hx], hc⟩

theorem inv_reach {sp c s} (h : Reach sp c s) : Inv sp c s := by
  induction h with
  | init => exact inv_init sp c
  | step _ hs ih => exact inv_step ih hs

theorem steps_reach {sp c s t} (h : Reach sp c s) (hs : Steps sp s t) : Reach sp c t := by
  induction hs with
  | refl => exact h
  | step _ hst ih => exact .step ih hst

/-! ## Specification

What somebody who writes a coroutine relies on. -/

/-- C78: in every execution – any operations, threads, runners, cancellations and shut-downs – the frame is never resumed or notified when it is gone or runs already;
every suspension is resumed at most once, and is resumed unless it is still registered or posted, or its closure was lost, or the frame was destroyed. -/
theorem C78_once {sp c s} (h : Reach sp c s) : s.bad = false ∧
    s.resumes + s.lost + (if s.frame = .destroyed then 1 else 0) ≤ s.suspends ∧
    s.suspends ≤ s.resumes + 1 ∧ (s.run ≠ .idle → s.suspends = s.resumes ∧ s.frame = .live) ∧ (s.frame = .ended → s.suspends = s.resumes) := by
  have hi := inv_reach h
  have ht := hi.tok
  have hc := hi.count
  refine ⟨hi.good, ?_, ?_, ?_, ?_⟩
  · have : s.lost ≤ pending s := by simp only [pending]; omega
    omega
  · have hd : pending s + (if s.frame = .destroyed then 1 else 0) ≤ 1 := by
      cases hf : s.frame <;> simp [hf] at ht ⊢ <;> omega
    omega
  · intro hr
    have hrn : runs s = 1 := by simp [runs, hr]
    cases hf : s.frame <;> simp [hf] at ht hc ⊢ <;> omega
  · intro hf
    simp [hf] at ht hc
    omega

/-- C78: a coroutine started on runner `r` executes on `r`, from the start to its end, wherever the awaited operations are completed. -/
theorem C78_place {sp : Bool} {r : Nat} {s} (h : Reach sp (some r) s) (hr : s.run ≠ .idle) : s.at_ = some r :=
  (inv_reach h).atp (by simp) hr

/-- C78 (partial: `WaitOnAddress` must not return early): `co_await` gives the value or throws the exception of the operation awaited, never before it is there;
it throws `OperationCanceledException` or `E_FAIL` only when the operation was canceled or its token asks for it. -/
theorem C78_result_partial {c s} (h : Reach false c s) : ∀ e ∈ s.log, ∃ o, s.ops[e.1]? = some o ∧
    match e.2 with
    | .val v => o.kind = some (.val v)
    | .exc x => o.kind = some (.exc x)
    | .canceled => o.kind = some .canceled ∨ o.token = true
    | .failed => o.kind = some .canceled ∨ o.token = true
    | .garbage => False := by
  intro e he
  obtain ⟨o, ho, hf⟩ := (inv_reach h).log e he
  refine ⟨o, ho, ?_⟩
  cases hx : e.2 <;> rw [hx] at hf <;> simpa [fits] using hf

/-- C78: the coroutine's own task is completed, or canceled by somebody else, when its body ends, and by nothing else: as long as the body has not ended it is unfinished or canceled by somebody. -/
theorem C78_own {sp c s} (h : Reach sp c s) : (s.frame = .ended → s.own ≠ none) ∧ (s.frame ≠ .ended → s.own = none ∨ s.own = some .canceled) :=
  (inv_reach h).own

/-- a completed task keeps its result -/
theorem C78_own_stable {sp s t} {k : Kind} (h : Steps sp s t) (hk : s.own = some k) : t.own = some k := by
  induction h with
  | refl => exact hk
  | step _ hst ih =>
    cases hst with
    | finish k' _ _ => simp [ih]
    | cancel ho => rw [ih] at ho; cases ho
    | get0 => split <;> simpa [give] using ih
    | get1 => split <;> simpa [give] using ih
    | notify =>
      simp only [onCompleted, resume]
      split
      · exact ih
      · split
        · split <;> exact ih
        · split
          · exact ih
          · split
            · split <;> exact ih
            · split <;> exact ih
    | exec =>
      simp only [resume]
      split <;> exact ih
    | _ => exact ih

/-- C78 (partial: no runner may stop or die): when all awaited operations are complete and have notified, and no closure waits in a queue, then the coroutine runs or has ended, and when it has ended its own task is complete;
in a `co_await` it can go on. -/
theorem C78_completes_partial {sp c s} (h : Reach sp c s) (hstop : ∀ r, s.stopped r = false) (hdead : ∀ r, s.dead r = false)
    (hops : ∀ o ∈ s.ops, o.stage = .swapped ∧ o.held = false) (hq : s.queue = []) :
    (s.run = .idle → s.frame = .ended ∧ s.own ≠ none) ∧ (s.run ≠ .idle → s.run ≠ .body → ∃ t, Step sp s t ∧ t.run ≠ .idle) := by
  have hi := inv_reach h
  have hz : sumBy tokOf s.ops = 0 := by
    rw [sumBy_eq_zero]
    intro o ho
    obtain ⟨i, hio⟩ := List.getElem?_of_mem ho
    have hok := hi.ops i o hio
    have := hops o ho
    have hl : o.listed = false := by
      cases hl : o.listed with
      | false => rfl
      | true => exact absurd this.1 (hok.2.2.1 hl)
    simp [tokOf, hl, this.2]
  have hl0 : s.lost = 0 := by
    rcases Nat.eq_zero_or_pos s.lost with h | h
    · exact h
    · obtain ⟨r, hr, _⟩ := hi.lostp h; rw [hstop r] at hr; cases hr
  have hp : pending s = 0 := by simp [pending, hz, hq, hl0]
  constructor
  · intro hr
    have ht := hi.tok
    have hrn : runs s = 0 := by simp [runs, hr]
    rw [hp, hrn] at ht
    have hfe : s.frame = .ended := by
      cases hf : s.frame with
      | live => simp [hf] at ht
      | ended => rfl
      | destroyed =>
        obtain ⟨r, hr, _⟩ := hi.destp hf; rw [hdead r] at hr; cases hr
    exact ⟨hfe, hi.own.1 hfe⟩
  · intro h0 hb
    have hne := hi.awaiting h0 hb
    have hlt : cur s < s.ops.length := by
      have : s.ops.length ≠ 0 := fun h => hne (List.length_eq_zero_iff.1 h)
      simp only [cur]; omega
    obtain ⟨o, ho⟩ : ∃ o, s.ops[cur s]? = some o := ⟨_, List.getElem?_eq_getElem hlt⟩
    have hsw := hops o (List.mem_of_getElem? ho)
    have hk : o.kind ≠ none := by
      intro hk
      have := (hi.ops _ _ ho).1.1 hk
      rw [hsw.1] at this; cases this
    cases hr : s.run with
    | idle => exact absurd hr h0
    | body => exact absurd hr hb
    | ready => exact ⟨_, .ready hr ho, by simp only; split <;> simp⟩
    | check => exact ⟨_, .check hr ho, by simp only; split <;> simp⟩
    | add => exact ⟨_, .addNo hr ho hk, by simp⟩
    | get0 => exact ⟨_, .get0 hr ho, by split <;> simp [give]⟩
    | get1 => exact ⟨_, .get1 hr ho, by split <;> simp [give]⟩
    | get2 => exact ⟨_, .get2 hr ho (.inr (.inl hsw.1)), by simp⟩
    | get3 => exact ⟨_, .get3 hr ho, by simp [give]⟩

/-- C78: a closure is lost only when a runner has stopped, a frame destroyed only when a runner is gone; for a coroutine started on runner `r` it is `r`. -/
theorem C78_lost_only {sp : Bool} {r : Nat} {s} (h : Reach sp (some r) s) : (0 < s.lost → s.stopped r = true) ∧ (s.frame = .destroyed → s.dead r = true) := by
  have hi := inv_reach h
  constructor
  · intro hl
    obtain ⟨x, hx, hc⟩ := hi.lostp hl
    rcases hc with h | h <;> cases h
    exact hx
  · intro hl
    obtain ⟨x, hx, hc⟩ := hi.destp hl
    rcases hc with h | h <;> cases h
    exact hx

/-- the coroutine is beyond help -/
def Gone (s : St) : Prop := s.run = .idle ∧ s.frame ≠ .ended ∧ sumBy tokOf s.ops = 0 ∧ s.queue = []

theorem gone_step {sp c s t} (hr : Reach sp c s) (hg : Gone s) (h : Step sp s t) : Gone t ∧ t.frame = s.frame ∧ (t.own = s.own ∨ t.own = some .canceled) := by
  obtain ⟨h1, h2, h3, h4⟩ := hg
  have key : ∀ (i : Nat) (o o' : Op), s.ops[i]? = some o → tokOf o' = tokOf o → Gone (setOp s i o') := by
    intro i o o' ho ht
    refine ⟨h1, h2, ?_, h4⟩
    have := sumBy_set tokOf s.ops i o' o ho
    simp only [setOp]
    omega
  have zero : ∀ (i : Nat) (o : Op), s.ops[i]? = some o → tokOf o = 0 := by
    intro i o ho
    have := le_sumBy tokOf s.ops i o ho
    omega
  cases h with
  | await h => rw [h1] at h; cases h
  | ready h => rw [h1] at h; cases h
  | check h => rw [h1] at h; cases h
  | addNo h => rw [h1] at h; cases h
  | addYes h => rw [h1] at h; cases h
  | get0 h => rw [h1] at h; cases h
  | get1 h => rw [h1] at h; cases h
  | get2 h => rw [h1] at h; cases h
  | get3 h => rw [h1] at h; cases h
  | finish k h => rw [h1] at h; cases h
  | cancel h => exact ⟨⟨h1, h2, h3, h4⟩, rfl, .inr rfl⟩
  | win k d ho _ => exact ⟨key _ _ _ ho rfl, rfl, .inl rfl⟩
  | write ho _ => exact ⟨key _ _ _ ho rfl, rfl, .inl rfl⟩
  | publish ho _ => exact ⟨key _ _ _ ho rfl, rfl, .inl rfl⟩
  | @swap i o ho hs =>
    have hz := zero _ _ ho
    have hh : o.listed = false := by
      cases hl : o.listed with
      | false => rfl
      | true => simp [tokOf, hl] at hz
    have hh2 : o.held = false := by
      cases hl : o.held with
      | false => rfl
      | true => simp [tokOf, hl] at hz
    exact ⟨key _ _ _ ho (by simp [tokOf, hh, hh2]), rfl, .inl rfl⟩
  | notify ho hh =>
    have hz := zero _ _ ho
    simp [tokOf, hh] at hz
  | token ho => exact ⟨key _ _ _ ho rfl, rfl, .inl rfl⟩
  | exec hq => rw [h4] at hq; simp at hq
  | drop hq _ => rw [h4] at hq; simp at hq
  | stop r => exact ⟨⟨h1, h2, h3, h4⟩, rfl, .inl rfl⟩
  | die r => exact ⟨⟨h1, h2, h3, h4⟩, rfl, .inl rfl⟩

theorem gone_steps {sp c s t} (hr : Reach sp c s) (hg : Gone s) (h : Steps sp s t) : Gone t ∧ t.frame = s.frame ∧ (t.own = s.own ∨ t.own = some .canceled) := by
  induction h with
  | refl => exact ⟨hg, rfl, .inl rfl⟩
  | step hs hst ih =>
    obtain ⟨a, b, d⟩ := ih
    obtain ⟨a', b', d'⟩ := gone_step (steps_reach hr hs) a hst
    refine ⟨a', b'.trans b, ?_⟩
    rcases d' with d' | d'
    · rw [d']; exact d
    · exact .inr d'

theorem gone_of {sp c s} (h : Reach sp c s) (hl : 0 < s.lost ∨ s.frame = .destroyed) : Gone s := by
  have hi := inv_reach h
  have ht := hi.tok
  have hrun : runs s = 0 → s.run = .idle := by
    intro h
    by_cases hr : s.run = .idle
    · exact hr
    · simp [runs, hr] at h
  simp only [pending] at ht
  have hb : sumBy tokOf s.ops + s.queue.length + s.lost + runs s ≤ 1 := by rw [ht]; split <;> omega
  rcases hl with hl | hl
  · refine ⟨hrun (by omega), ?_, by omega, List.length_eq_zero_iff.1 (by omega)⟩
    intro hf
    simp [hf] at ht
    omega
  · simp [hl] at ht
    exact ⟨hrun (by omega), by rw [hl]; simp, by omega, ht.1.1.2⟩

/-- C78, what goes wrong for ever: once the runner refused or dropped the closure, or was gone, the body never goes on whatever happens afterwards; the coroutine's task is not completed except by a `Cancel` from outside, so who waits for it waits for ever.
When the closure was lost the frame is not freed either: its locals are never destroyed. -/
theorem C78_stuck_fails {sp c s t} (h : Reach sp c s) (hl : 0 < s.lost ∨ s.frame = .destroyed) (ht : Steps sp s t) :
    t.run = .idle ∧ (t.own = s.own ∨ t.own = some .canceled) ∧ (∀ k, t.own = some k → k = .canceled) ∧ t.frame = s.frame ∧ (0 < s.lost → t.frame = .live) := by
  obtain ⟨hg, hf, ho⟩ := gone_steps h (gone_of h hl) ht
  have hr := steps_reach h ht
  have how := (inv_reach hr).own.2 hg.2.1
  refine ⟨hg.1, ho, ?_, hf, ?_⟩
  · intro k hk
    rcases how with h | h <;> rw [h] at hk <;> cases hk
    rfl
  · intro h0
    rw [hf]
    have hi := inv_reach h
    have := hi.tok
    simp only [pending] at this
    by_cases hlv : s.frame = .live
    · exact hlv
    · simp [hlv] at this; omega

end Verif.Coro
