import Verif.IoCall.Model
/-!
# C112 – asynchronous file operations with a callback
-/
namespace Verif.IoCall

/-- who still owes the call: the caller, the continuation -/
def owes (s : St) : Nat :=
  (match s.pc with | .ret _ => 0 | _ => 1) + (match s.handler with | .registered => 1 | .posted => 1 | .lost => 1 | _ => 0)

structure Inv (v : Env) (s : St) : Prop where
  one : s.calls.length + owes s = 1
  ret : ∀ l, s.pc = .ret l → l = 0
  res : s.stage ≠ .started → s.res ≠ none
  issue : s.pc = .issue → s.res = none ∧ s.handler = .none ∧ s.stage = .started
  direct : s.pc = .direct ∨ s.pc = .cont → s.stage ≠ .started
  hnone : s.handler ≠ .none → ∃ l, s.pc = .ret l
  fin : s.stage = .notified → s.handler ≠ .registered
  post : s.handler = .posted ∨ s.handler = .lost ∨ s.handler = .over → s.stage = .notified
  lst : s.stage = .stored ∨ s.stage = .published ∨ s.stage = .notified → ∃ n, s.res = some (s.lst, n)
  lst0 : s.stage = .claimed ∨ s.stage = .started → s.lst = ioPending
  bytes : ∀ c ∈ s.calls, ∃ e, s.res = some (e, c.bytes)
  called : s.calls ≠ [] → s.stage ≠ .started
  home : v.home = true → s.dead = false → ∀ c ∈ s.calls, c.place ≠ .pool
  lost : s.handler = .lost → s.stopped = true
  dst : s.dead = true → s.stopped = true

theorem inv_step {v : Env} {s t : St} (i : Inv v s) (h : Step v s t) : Inv v t := by
  have hone := i.one
  have hdst := i.dst
  cases h with
  | atOnce e n hp hn =>
    obtain ⟨h1, h2, h3⟩ := i.issue hp
    have hc : s.calls = [] := by
      rcases hh : s.calls with _ | ⟨c, cs⟩
      · rfl
      · exact absurd h3 (i.called (by rw [hh]; simp))
    constructor <;> simp_all [owes]
  | raced n hp =>
    obtain ⟨h1, h2, h3⟩ := i.issue hp
    have hc : s.calls = [] := by
      rcases hh : s.calls with _ | ⟨c, cs⟩
      · rfl
      · exact absurd h3 (i.called (by rw [hh]; simp))
    have := i.lst0 (.inr h3)
    constructor <;> simp_all [owes]
  | pending hp =>
    obtain ⟨h1, h2, h3⟩ := i.issue hp
    have hc : s.calls = [] := by
      rcases hh : s.calls with _ | ⟨c, cs⟩
      · rfl
      · exact absurd h3 (i.called (by rw [hh]; simp))
    have := i.lst0 (.inr h3)
    constructor <;> simp_all [owes]
  | complete e n hp hr =>
    have hs : s.stage = .started := Classical.byContradiction fun h => i.res h hr
    have hc : s.calls = [] := Classical.byContradiction fun h => i.called h hs
    have := i.lst0 (.inr hs)
    have h1 := i.ret; have h2 := i.direct; have h3 := i.hnone; have h4 := i.post; have h5 := i.lost; have h6 := i.dst
    constructor <;> simp_all [owes]
  | claim hr hs =>
    have := i.lst0 (.inr hs)
    have h1 := i.ret; have h3 := i.hnone; have h4 := i.post; have h5 := i.lost; have h6 := i.dst; have h7 := i.bytes; have h8 := i.home; have h9 := i.issue; have h10 := i.called
    constructor <;> simp_all [owes]
  | store hr hs =>
    have h1 := i.ret; have h2 := i.direct; have h3 := i.hnone; have h4 := i.post; have h5 := i.lost; have h6 := i.dst; have h7 := i.bytes; have h8 := i.home; have h9 := i.issue
    constructor <;> simp_all [owes]
    exact fun c hc => (h7 c hc)
  | publish hs =>
    have h1 := i.ret; have h2 := i.direct; have h3 := i.hnone; have h4 := i.post; have h5 := i.lost; have h6 := i.dst; have h7 := i.bytes; have h8 := i.home; have h9 := i.issue
    have h10 := i.lst; have h11 := i.res
    constructor <;> simp_all [owes]
  | notifyNone hs hh =>
    have h1 := i.ret; have h2 := i.direct; have h3 := i.hnone; have h4 := i.post; have h5 := i.lost; have h6 := i.dst; have h7 := i.bytes; have h8 := i.home; have h9 := i.issue
    have h10 := i.lst; have h11 := i.res
    constructor <;> simp_all [owes]
  | notify hs hh hr =>
    obtain ⟨l, hl⟩ := i.hnone (by rw [hh]; simp)
    have hl0 := i.ret l hl
    subst hl0
    have h7 := i.bytes; have h8 := i.home; have h6 := i.dst
    have h10 := i.lst (by simp [hs])
    have hc : s.calls = [] := by
      have : s.calls.length = 0 := by simp [owes, hl, hh] at hone; simp [hone]
      exact List.length_eq_zero_iff.1 this
    unfold onCompleted
    dsimp only
    split
    · constructor <;> simp_all [owes]
      · intro a; rcases ‹v.home = false ∨ s.dead = true› with h | h <;> simp_all
    · split
      · constructor <;> simp_all [owes]
      · constructor <;> simp_all [owes]
  | switch h hp =>
    have hn : s.handler = .none := Classical.byContradiction fun hh => by obtain ⟨l, hl⟩ := i.hnone hh; rw [hp] at hl; cases hl
    have h7 := i.bytes; have h8 := i.home; have h6 := i.dst; have h10 := i.lst; have h11 := i.res; have h12 := i.lst0; have h13 := i.called
    cases hs : s.stage <;> constructor <;> simp_all [owes, branch, Stage.status]
  | direct hp hrd hr =>
    have hn : s.handler = .none := Classical.byContradiction fun hh => by obtain ⟨l, hl⟩ := i.hnone hh; rw [hp] at hl; cases hl
    have hd := i.direct (.inl hp)
    have h7 := i.bytes; have h8 := i.home; have h6 := i.dst; have h10 := i.lst; have h11 := i.res; have h12 := i.lst0
    constructor <;> simp_all [owes]
  | add hp hs =>
    have hn : s.handler = .none := Classical.byContradiction fun hh => by obtain ⟨l, hl⟩ := i.hnone hh; rw [hp] at hl; cases hl
    have h7 := i.bytes; have h8 := i.home; have h6 := i.dst; have h12 := i.lst0; have h13 := i.called
    constructor <;> simp_all [owes]
  | addNo hp hs =>
    have hn : s.handler = .none := Classical.byContradiction fun hh => by obtain ⟨l, hl⟩ := i.hnone hh; rw [hp] at hl; cases hl
    have h7 := i.bytes; have h8 := i.home; have h6 := i.dst; have h10 := i.lst; have h11 := i.res; have h12 := i.lst0
    constructor <;> simp_all [owes]
  | cont hp hrd hr =>
    have hn : s.handler = .none := Classical.byContradiction fun hh => by obtain ⟨l, hl⟩ := i.hnone hh; rw [hp] at hl; cases hl
    have hd := i.direct (.inr hp)
    have h7 := i.bytes; have h8 := i.home; have h6 := i.dst; have h10 := i.lst; have h11 := i.res; have h12 := i.lst0
    constructor <;> simp_all [owes]
  | exec hh hd hr =>
    obtain ⟨l, hl⟩ := i.hnone (by rw [hh]; simp)
    have hl0 := i.ret l hl
    subst hl0
    have hs := i.post (.inl hh)
    have h7 := i.bytes; have h8 := i.home; have h6 := i.dst; have h10 := i.lst
    constructor <;> simp_all [owes]
  | drop hh hst =>
    obtain ⟨l, hl⟩ := i.hnone (by rw [hh]; simp)
    have hl0 := i.ret l hl
    subst hl0
    have hs := i.post (.inl hh)
    have h7 := i.bytes; have h8 := i.home; have h6 := i.dst; have h10 := i.lst; have h11 := i.res
    constructor <;> simp_all [owes]
  | stop => exact ⟨hone, i.ret, i.res, i.issue, i.direct, i.hnone, i.fin, i.post, i.lst, i.lst0, i.bytes, i.called, i.home, fun _ => rfl, fun _ => rfl⟩
  | die hp => exact ⟨hone, i.ret, i.res, i.issue, i.direct, i.hnone, i.fin, i.post, i.lst, i.lst0, i.bytes, i.called, (by simp), fun _ => rfl, fun _ => rfl⟩

theorem inv_init (v : Env) : Inv v {} := by
  constructor <;> simp [owes]

theorem inv_reach {v : Env} {s : St} (h : Reach v s) : Inv v s := by
  induction h with
  | refl => exact inv_init v
  | step _ h ih => exact inv_step ih h

theorem Steps.trans {v : Env} {s t u : St} (h : Steps v s t) (k : Steps v t u) : Steps v s u := by
  induction k with
  | refl => exact h
  | step _ h ih => exact .step ih h

/-- C112: whatever happens, the callback is called at most once, with the number of bytes of the request, and not before the request is complete; a call that returns has returned `ERROR_SUCCESS`. -/
theorem C112_once {v : Env} {s : St} (h : Reach v s) :
    s.calls.length ≤ 1 ∧ (∀ c ∈ s.calls, ∃ e, s.res = some (e, c.bytes)) ∧ ∀ l, s.pc = .ret l → l = 0 := by
  have i := inv_reach h
  exact ⟨by have := i.one; omega, i.bytes, i.ret⟩

/-- C112 (partial): after the call has returned and the notification is over, nothing being queued, the callback has been called exactly once – if the runner was not stopped.
Missing: stopped runners, `C112_lost_fails`. -/
theorem C112_called_partial {v : Env} {s : St} (h : Reach v s) {l : Nat} (hp : s.pc = .ret l) (hs : s.stage = .notified) (hq : s.handler ≠ .posted) (hr : s.stopped = false) :
    s.calls.length = 1 := by
  have i := inv_reach h
  have h1 := i.one
  have h2 := i.fin hs
  have h3 : s.handler ≠ .lost := fun e => by have := i.lost e; rw [hr] at this; cases this
  unfold owes at h1
  rw [hp] at h1
  cases hh : s.handler <;> simp_all

/-- C112 (partial): a caller on a runner that still exists gets the callback on this runner – inside the call or later. -/
theorem C112_place_partial {v : Env} {s : St} (h : Reach v s) (hv : v.home = true) (hd : s.dead = false) : ∀ c ∈ s.calls, c.place = .caller ∨ c.place = .runner := by
  intro c hc
  have := (inv_reach h).home hv hd c hc
  cases hp : c.place <;> simp_all

/-- the code the documentation promises (`_lStatus`): the status of the request; a request that transferred something is a success -/
def Promised (v : Env) (e n code : Nat) : Prop := if v.conn = true ∨ n = 0 then code = e else code = 0

/-- the codes of a state: right, or given by the case `Completed` of `AsyncRead`/`AsyncWrite` -/
def CodeInv (v : Env) (s : St) : Prop := ∀ c ∈ s.calls, ∃ e, s.res = some (e, c.bytes) ∧ (Promised v e c.bytes c.code ∨ (v.conn = false ∧ c.place = .caller ∧ c.code = 0))

theorem lambda_promised {v : Env} {s : St} {n : Nat} : Promised v s.lst n (lambdaCode v s n) := by
  unfold Promised lambdaCode
  cases v.conn <;> by_cases hn : n = 0 <;> simp [hn]

theorem code_step {v : Env} (he : v.early = false) {s t : St} (i : Inv v s) (ci : CodeInv v s) (h : Step v s t) : CodeInv v t := by
  have empty : s.stage = .started → s.calls = [] := fun hs => Classical.byContradiction fun hc => i.called hc hs
  have rdy : ready v s = true → s.stage = .stored ∨ s.stage = .published ∨ s.stage = .notified := by
    intro hr
    unfold ready at hr
    rw [he] at hr
    cases hs : s.stage <;> simp_all
  -- one more call
  have more : ∀ (c : Call) (t : St), t.calls = s.calls ++ [c] → t.res = s.res →
      (∃ e, s.res = some (e, c.bytes) ∧ (Promised v e c.bytes c.code ∨ (v.conn = false ∧ c.place = .caller ∧ c.code = 0))) → CodeInv v t := by
    intro c t h1 h2 h3 d hd
    rw [h1, List.mem_append, List.mem_singleton] at hd
    rw [h2]
    rcases hd with hd | rfl
    · exact ci d hd
    · exact h3
  have viaLambda : ∀ {e n : Nat} (pl : Place), s.res = some (e, n) → (s.stage = .stored ∨ s.stage = .published ∨ s.stage = .notified) →
      ∃ e, s.res = some (e, n) ∧ (Promised v e n (lambdaCode v s n) ∨ (v.conn = false ∧ pl = .caller ∧ lambdaCode v s n = 0)) := by
    intro e n pl hr hs
    obtain ⟨m, hm⟩ := i.lst hs
    rw [hr] at hm
    cases hm
    exact ⟨_, hr, .inl lambda_promised⟩
  cases h with
  | atOnce e n hp hn => intro c hc; dsimp only at hc; rw [empty (i.issue hp).2.2] at hc; cases hc
  | raced n hp => intro c hc; dsimp only at hc; rw [empty (i.issue hp).2.2] at hc; cases hc
  | complete e n hp hr =>
    intro c hc
    dsimp only at hc
    rw [empty (Classical.byContradiction fun h => i.res h hr)] at hc; cases hc
  | notify hs hh hr =>
    unfold onCompleted
    split
    · exact more _ _ rfl rfl (viaLambda .pool hr (.inr (.inl hs)))
    · split <;> exact ci
  | direct hp hrd hr =>
    refine more _ _ rfl rfl ?_
    cases hv : v.conn with
    | false => exact ⟨_, hr, .inr ⟨rfl, rfl, by simp [directCode, hv]⟩⟩
    | true =>
      obtain ⟨m, hm⟩ := i.lst (rdy hrd)
      rw [hr] at hm
      cases hm
      exact ⟨_, hr, .inl (by simp [Promised, directCode, hv])⟩
  | cont hp hrd hr => exact more _ _ rfl rfl (viaLambda .caller hr (rdy hrd))
  | exec hh hd hr => exact more _ _ rfl rfl (viaLambda .runner hr (.inr (.inr (i.post (.inl hh)))))
  | pending _ | claim _ _ | store _ _ | publish _ | notifyNone _ _ | switch _ _ | add _ _ | addNo _ _ | drop _ _ | stop | die _ => exact ci

theorem code_reach {v : Env} (he : v.early = false) {s : St} (h : Reach v s) : CodeInv v s := by
  induction h with
  | refl => intro c hc; cases hc
  | step h st ih => exact code_step he (inv_reach h) ih st

/-- C112 (partial): as long as `WaitOnAddress` returns only after a change, `AsyncConnect` reports the status of the request; `AsyncRead` and `AsyncWrite` do whenever they
call back from outside the call, and always for successful requests and those that transferred something.
Missing: failures reported inside the call, `C112_hidden_fails`; early returns, `C112_early_fails`. -/
theorem C112_code_partial {v : Env} (he : v.early = false) {s : St} (h : Reach v s) {c : Call} (hc : c ∈ s.calls) :
    ∃ e, s.res = some (e, c.bytes) ∧ (v.conn = true ∨ c.place ≠ .caller ∨ e = 0 ∨ c.bytes ≠ 0 → Promised v e c.bytes c.code) ∧ (c.code = e ∨ c.code = 0) := by
  obtain ⟨e, h1, h2⟩ := code_reach he h c hc
  refine ⟨e, h1, fun hx => ?_, ?_⟩
  · rcases h2 with h2 | ⟨a, b, d⟩
    · exact h2
    · rcases hx with hx | hx | hx | hx
      · rw [a] at hx; cases hx
      · exact absurd b hx
      · subst hx; unfold Promised; split <;> exact d
      · unfold Promised; rw [if_neg (by simp [a, hx])]; exact d
  · rcases h2 with h2 | ⟨a, b, d⟩
    · unfold Promised at h2; split at h2
      · exact .inl h2
      · exact .inr h2
    · exact .inr d

/-- C112 fails: a read or write that fails at once is reported as a success, by the return value and by the callback, whatever the error. -/
theorem C112_hidden_fails {v : Env} (hv : v.conn = false) {e : Nat} {t : St} (h : Steps v { pc := .status, res := some (e, 0), stage := .notified, lst := e } t) :
    (∀ c ∈ t.calls, c = ⟨0, 0, .caller⟩) ∧ ∀ l, t.pc = .ret l → l = 0 ∧ t.calls = [⟨0, 0, .caller⟩] := by
  have key : t.stage = .notified ∧ t.res = some (e, 0) ∧ t.handler = .none ∧ ((t.pc = .status ∨ t.pc = .direct) ∧ t.calls = [] ∨ t.pc = .ret 0 ∧ t.calls = [⟨0, 0, .caller⟩]) := by
    induction h with
    | refl => exact ⟨rfl, rfl, rfl, .inl ⟨.inl rfl, rfl⟩⟩
    | step _ st ih =>
      obtain ⟨h1, h2, h3, h4⟩ := ih
      cases st with
      | switch h hp => exact ⟨h1, h2, h3, .inl ⟨.inr (by dsimp only; rw [h1]; rfl), by rcases h4 with h4 | h4 <;> simp_all⟩⟩
      | direct hp hrd hr =>
        rw [h2] at hr
        cases hr
        refine ⟨h1, h2, h3, .inr ⟨rfl, ?_⟩⟩
        rcases h4 with h4 | h4
        · dsimp only; rw [h4.2]; simp [directCode, hv]
        · rw [hp] at h4; simp at h4
      | stop => exact ⟨h1, h2, h3, h4⟩
      | die hp => exact ⟨h1, h2, h3, h4⟩
      | _ => simp_all
  obtain ⟨_, _, _, h4⟩ := key
  refine ⟨fun c hc => ?_, fun l hl => ?_⟩
  · rcases h4 with h4 | h4
    · rw [h4.2] at hc; cases hc
    · rw [h4.2] at hc; simpa using hc
  · rcases h4 with h4 | h4
    · rw [hl] at h4; simp at h4
    · rw [hl] at h4; exact ⟨by simpa using h4.1, h4.2⟩

/-- every call that fails at once gets there -/
example (v : Env) (e : Nat) : Reach v { pc := .status, res := some (e, 0), stage := .notified, lst := e } := .step .refl (.atOnce e 0 rfl (fun _ => rfl))

/-- … and such a failing call exists (reading at the end of the file, `ERROR_HANDLE_EOF`) -/
theorem C112_hidden_example : ∃ s, Reach ⟨false, true, false⟩ s ∧ s.res = some (38, 0) ∧ s.pc = .ret 0 ∧ s.calls = [⟨0, 0, .caller⟩] :=
  ⟨_, .step (.step (.step .refl (.atOnce 38 0 rfl (fun _ => rfl))) (.switch 0 rfl)) (.direct rfl rfl rfl), rfl, rfl, rfl⟩

/-- C112 fails: which code a pending read that ends with `ERROR_HANDLE_EOF` is reported with depends on the moment of its completion. -/
theorem C112_timing_fails : ∃ r : St, Reach ⟨false, true, false⟩ r ∧ r.pc = .status ∧ r.res = none ∧
    (∃ s, Steps ⟨false, true, false⟩ r s ∧ s.res = some (38, 0) ∧ s.calls = [⟨0, 0, .caller⟩]) ∧
    ∃ s, Steps ⟨false, true, false⟩ r s ∧ s.res = some (38, 0) ∧ s.calls = [⟨38, 0, .runner⟩] := by
  refine ⟨{ pc := .status }, .step .refl (.pending rfl), rfl, rfl, ?_, ?_⟩
  · exact ⟨_, .step (.step (.step (.step (.step (.step .refl (.complete 38 0 (by decide) rfl)) (.claim rfl rfl)) (.store rfl rfl)) (.publish rfl)) (.switch 0 rfl)) (.direct rfl rfl rfl), rfl, rfl⟩
  · exact ⟨_, .step (.step (.step (.step (.step (.step (.step (.step .refl (.switch 0 rfl)) (.add rfl rfl)) (.complete 38 0 (by decide) rfl)) (.claim rfl rfl)) (.store rfl rfl))
      (.publish rfl)) (.notify rfl rfl rfl)) (.exec rfl rfl rfl), rfl, rfl⟩

/-- C112 fails: if the runner refuses the continuation or drops it, the callback is never called, although `ERROR_SUCCESS` was returned. -/
theorem C112_lost_fails {v : Env} {s t : St} (h : Reach v s) (hl : s.handler = .lost) (k : Steps v s t) : t.calls = [] ∧ t.pc = .ret 0 := by
  have key : t.handler = .lost := by
    induction k with
    | refl => exact hl
    | step k st ih =>
      have i := inv_reach (Steps.trans h k)
      cases st with
      | add hp hs => obtain ⟨l, hl⟩ := i.hnone (by rw [ih]; simp); rw [hp] at hl; cases hl
      | notify hs hh hr => rw [hh] at ih; cases ih
      | exec hh hd hr => rw [hh] at ih; cases ih
      | drop hh hst => rfl
      | _ => exact ih
  have i := inv_reach (Steps.trans h k)
  obtain ⟨l, hp⟩ := i.hnone (by rw [key]; simp)
  have hz := i.ret l hp
  subst hz
  have := i.one
  simp [owes, key, hp] at this
  exact ⟨this, hp⟩

theorem C112_lost_example : ∃ s, Reach ⟨false, true, false⟩ s ∧ s.handler = .lost ∧ s.res = some (0, 5) :=
  ⟨_, .step (.step (.step (.step (.step (.step (.step (.step (.step .refl (.pending rfl)) (.switch 0 rfl)) (.add rfl rfl)) (.complete 0 5 (by decide) rfl)) (.claim rfl rfl)) (.store rfl rfl))
      (.publish rfl)) .stop) (.notify rfl rfl rfl), rfl, rfl⟩

/-- C112 fails: the runner is gone, the callback runs on a thread of the pool -/
theorem C112_place_fails : ∃ s, Reach ⟨false, true, false⟩ s ∧ s.calls = [⟨0, 5, .pool⟩] :=
  ⟨_, .step (.step (.step (.step (.step (.step (.step (.step (.step .refl (.pending rfl)) (.switch 0 rfl)) (.add rfl rfl)) (.die rfl)) (.complete 0 5 (by decide) rfl)) (.claim rfl rfl)) (.store rfl rfl))
      (.publish rfl)) (.notify rfl rfl rfl), rfl⟩

/-- C112 fails: an early return of `WaitOnAddress` makes the callback see `ERROR_IO_PENDING` as the final code, for a request that ended otherwise. -/
theorem C112_early_fails (conn : Bool) : ∃ s, Reach ⟨conn, true, true⟩ s ∧ s.res = some (38, 0) ∧ s.calls = [⟨997, 0, .caller⟩] := by
  cases conn <;>
  exact ⟨_, .step (.step (.step (.step (.step (.step .refl (.pending rfl)) (.switch 0 rfl)) (.complete 38 0 (by decide) rfl)) (.claim rfl rfl)) (.addNo rfl (by decide))) (.cont rfl rfl rfl), rfl, rfl⟩

#print axioms C112_once
#print axioms C112_code_partial
#print axioms C112_hidden_fails
#print axioms C112_lost_fails

end Verif.IoCall
