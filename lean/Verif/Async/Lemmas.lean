import Verif.Async.Model
set_option linter.unusedSimpArgs false
set_option linter.unusedVariables false
namespace Verif.Async
open Verif.Common

theorem Kind.hr_ne (k : Kind) : k.hr ≠ E_PENDING := by
  cases k <;> simp [Kind.hr, norm, E_PENDING, S_OK, E_CANCELLED, E_UNEXPECTED]
  all_goals grind

theorem Kind.status_ne (k : Kind) : k.status ≠ .started := by cases k <;> simp [Kind.status]

def ind (p : Prop) [Decidable p] : Nat := if p then 1 else 0

def isPre : PC → Nat
  | .writeValue _ => 1
  | .writeHr _ => 1
  | .swap => 1
  | _ => 0
def isPush : PC → Nat
  | .addPush _ => 1
  | _ => 0
def isLocker : PC → Nat
  | .addPush _ => 1
  | .addLocked _ => 1
  | _ => 0
def pend (h : Nat) : PC → Nat
  | .addPush x => ind (x = h)
  | .addLocked x => ind (x = h)
  | _ => 0
def rfsd (h : Nat) : PC → Nat
  | .refused x _ => ind (x = h)
  | _ => 0
def lst (h : Nat) : PC → Nat
  | .invoke l => l.count h
  | .call _ _ _ l => l.count h
  | .gotEptr _ _ _ l => l.count h
  | .gotHr _ _ _ l => l.count h
  | _ => 0
def inCall (h : Nat) : PC → Nat
  | .call x _ _ _ => ind (x = h)
  | .gotEptr x _ _ _ => ind (x = h)
  | .gotHr x _ _ _ => ind (x = h)
  | _ => 0

/-- the shared fields that matter for what readers see -/
structure Core where
  wins : List Kind
  status : Status
  hr : Nat
  eptr : Option Nat
  value : Option Nat

def St.core (s : St) : Core := ⟨s.wins, s.status, s.hr, s.eptr, s.value⟩

/-- The completing call `k` has published everything. -/
def Fin (c : Core) : Prop := ∃ k, c.wins = [k] ∧ c.status = k.status ∧ c.hr = k.hr ∧ c.eptr = k.eptr ∧ c.value = k.value

def TInv (c : Core) : PC → Prop
  | .writeValue k => c.wins = [k] ∧ c.hr = E_PENDING
  | .writeHr k => c.wins = [k] ∧ c.hr = E_PENDING ∧ c.eptr = k.eptr ∧ c.value = k.value
  | .swap => Fin c
  | .invoke _ => Fin c
  | .refused _ p => c.status ≠ .started ∧ (p = true → Fin c)
  | .call _ st late rest => c.status ≠ .started ∧ st = c.status ∧ (late ≠ some false → Fin c) ∧ (late ≠ none → rest = [])
  | .gotEptr _ e late rest => c.status ≠ .started ∧ c.status ≠ .completed ∧ (late ≠ some false → Fin c ∧ e = c.eptr) ∧ (late ≠ none → rest = [])
  | .gotHr _ hr late rest => c.status ≠ .started ∧ c.status ≠ .completed ∧ (late ≠ some false → Fin c ∧ hr = c.hr) ∧ (late ≠ none → rest = [])
  | _ => True

/-- the code a failure is reported with: "no error" and `E_PENDING` are not failures and read as `E_UNEXPECTED` -/
def failureCode (hr : Nat) : Nat := if hr = 0 ∨ hr = 0x8000000A then 0x8000FFFF else hr

/-- what a continuation of a completing call `k` must see; a cancelled operation reads as `HRESULT_FROM_WIN32(ERROR_CANCELLED)` -/
def expected : Kind → Outcome
  | .resolve v => .ran (some v)
  | .error hr => .failed none (failureCode hr)
  | .exc x hr => .failed (some x) (failureCode hr)
  | .cancel => .failed none 0x800704C7

structure Inv (s : St) : Prop where
  w : (s.wins = [] ∧ s.status = .started) ∨ ∃ k, s.wins = [k] ∧ s.status = k.status
  g : s.hr = E_PENDING ∨ Fin s.core
  T : ∀ (j : Nat) t, s.threads[j]? = some t → TInv s.core t
  pre1 : sumBy isPre s.threads ≤ 1
  pre0 : s.status = .started → sumBy isPre s.threads = 0
  done : s.status ≠ .started → sumBy isPre s.threads = 0 → s.reg = [] ∧ sumBy isPush s.threads = 0 ∧ s.hr ≠ E_PENDING
  lock : sumBy isLocker s.threads = if s.locked then 1 else 0
  push : sumBy isPush s.threads ≤ sumBy isLocker s.threads
  uniq : ∀ h, s.attached.count h ≤ 1
  cnt1 : ∀ h, s.attached.count h = sumBy (pend h) s.threads + s.accepted.count h + s.refused.count h
  cnt2 : ∀ h, s.accepted.count h = s.called.count h + s.removed.count h + s.reg.count h + sumBy (lst h) s.threads
  cnt3 : ∀ h, s.refused.count h = sumBy (rfsd h) s.threads + s.lateCalled.count h
  cnt4 : ∀ h, s.called.count h + s.lateCalled.count h = (s.outcomes.map (·.1)).count h + sumBy (inCall h) s.threads
  outs : ∀ o ∈ s.outcomes, s.status ≠ .started ∧ (o.2.1 ≠ some false → ∃ k, s.wins = [k] ∧ o.2.2 = expected k)
  calledFin : s.called ≠ [] → Fin s.core
  refusedSt : s.refused ≠ [] → s.status ≠ .started

theorem count_cons' (x h : Nat) (l : List Nat) : (x :: l).count h = l.count h + ind (x = h) := by
  simp [List.count_cons, ind]

theorem norm_hr (k : Kind) (hk : k.status ≠ .completed) : norm k.hr = k.hr := by
  cases k <;> simp [Kind.hr, Kind.status, norm, E_PENDING, S_OK, E_CANCELLED, E_UNEXPECTED] at *
  all_goals grind

theorem fin_expected {c : Core} (hf : Fin c) (hc : c.status ≠ .completed) :
    ∃ k, c.wins = [k] ∧ Outcome.failed c.eptr (norm c.hr) = expected k := by
  obtain ⟨k, h1, h2, h3, h4, h5⟩ := hf
  refine ⟨k, h1, ?_⟩
  rw [h2] at hc
  rw [h3, h4, norm_hr k hc]
  cases k <;> simp [expected, Kind.status, Kind.eptr, Kind.hr, norm, failureCode, S_OK, E_PENDING, E_UNEXPECTED, E_CANCELLED] at * <;> grind

theorem fin_ran {c : Core} (hf : Fin c) (hc : c.status = .completed) :
    ∃ k, c.wins = [k] ∧ Outcome.ran c.value = expected k := by
  obtain ⟨k, h1, h2, h3, h4, h5⟩ := hf
  refine ⟨k, h1, ?_⟩
  rw [h2] at hc
  rw [h5]
  cases k <;> simp [expected, Kind.status, Kind.value] at *

theorem T_set {s : St} {c : Core} (hI : Inv s) {i : Nat} {x : PC}
    (hx : TInv c x) (hr : ∀ (j : Nat) t, j ≠ i → s.threads[j]? = some t → TInv s.core t → TInv c t) :
    ∀ (j : Nat) t, (s.threads.set i x)[j]? = some t → TInv c t := by
  intro j t hj
  by_cases hji : j = i
  · subst hji
    rw [List.getElem?_set] at hj
    simp at hj
    obtain ⟨-, rfl⟩ := hj; exact hx
  · rw [List.getElem?_set_ne (Ne.symm hji)] at hj
    exact hr j t hji hj (hI.T j t hj)

theorem sumBy_replicate {α} (f : α → Nat) (x : α) (hx : f x = 0) (n : Nat) : sumBy f (List.replicate n x) = 0 := by
  induction n with
  | zero => rfl
  | succ n ih => simp [List.replicate_succ, ih, hx]

theorem inv_init {s} (h : Init s) : Inv s := by
  obtain ⟨n, rfl⟩ := h
  constructor
  case T =>
    intro j t ht
    simp [List.getElem?_replicate] at ht
    obtain ⟨_, rfl⟩ := ht
    trivial
  all_goals
    have e := fun f h => sumBy_replicate (α := PC) f .idle h n
    simp [e isPre rfl, e isPush rfl, e isLocker rfl, e (pend _) rfl, e (rfsd _) rfl, e (lst _) rfl, e (inCall _) rfl]

/-- Changes that leave the shared fields of `Core`, the number of publishers and the registration state alone. -/
theorem fin_ne {c : Core} (h : Fin c) : c.hr ≠ E_PENDING := by
  obtain ⟨k, _, _, h, _⟩ := h; rw [h]; exact k.hr_ne

/-- effect of thread `i` going from `p` to `q` on all the sums -/
structure Sums (l l' : List PC) (p q : PC) : Prop where
  pre : sumBy isPre l' + isPre p = sumBy isPre l + isPre q
  push : sumBy isPush l' + isPush p = sumBy isPush l + isPush q
  locker : sumBy isLocker l' + isLocker p = sumBy isLocker l + isLocker q
  pend : ∀ h, sumBy (pend h) l' + pend h p = sumBy (pend h) l + pend h q
  rfsd : ∀ h, sumBy (rfsd h) l' + rfsd h p = sumBy (rfsd h) l + rfsd h q
  lst : ∀ h, sumBy (lst h) l' + lst h p = sumBy (lst h) l + lst h q
  inCall : ∀ h, sumBy (inCall h) l' + inCall h p = sumBy (inCall h) l + inCall h q

theorem sums_of {l : List PC} {i : Nat} {p : PC} (h : l[i]? = some p) (q : PC) : Sums l (l.set i q) p q :=
  ⟨sumBy_set _ _ _ _ _ h, sumBy_set _ _ _ _ _ h, sumBy_set _ _ _ _ _ h, fun _ => sumBy_set _ _ _ _ _ h, fun _ => sumBy_set _ _ _ _ _ h,
   fun _ => sumBy_set _ _ _ _ _ h, fun _ => sumBy_set _ _ _ _ _ h⟩

theorem ind_le (p : Prop) [Decidable p] : ind p ≤ 1 := by unfold ind; split <;> omega

theorem tinv_win {c c' : Core} (hw : c.wins = []) (hs : c.status = .started) {t : PC} (h : TInv c t) : TInv c' t := by
  have hnf : ¬ Fin c := by rintro ⟨k, hk, -⟩; simp [hw] at hk
  cases t <;> simp only [TInv] at * <;> grind

theorem tinv_write {c c' : Core} (hh : c.hr = E_PENDING) (hs : c'.status = c.status) {t : PC} (ht : isPre t = 0)
    (h : TInv c t) : TInv c' t := by
  have hnf : ¬ Fin c := fun h => fin_ne h hh
  cases t <;> simp only [TInv, isPre] at * <;> grind

theorem other_pre {s : St} (hI : Inv s) {i j : Nat} {p t : PC} (hp : s.threads[i]? = some p) (h1 : isPre p = 1)
    (hj : j ≠ i) (ht : s.threads[j]? = some t) : isPre t = 0 := by
  have := add_le_sumBy isPre s.threads i j p t (Ne.symm hj) hp ht
  have := hI.pre1
  omega

theorem Inv.ne_started {s : St} (hI : Inv s) {k : Kind} (hw : s.wins = [k]) : s.status = k.status ∧ s.status ≠ .started := by
  rcases hI.w with w | ⟨k', w1, w2⟩
  · simp [hw] at w
  · rw [hw] at w1; cases w1; exact ⟨w2, w2 ▸ k.status_ne⟩

/-- Steps of one thread that change neither the completion fields nor the lock nor the list. -/
theorem inv_quiet {s s' : St} (hI : Inv s) {i : Nat} {p q : PC} (h : s.threads[i]? = some p) (hs : s'.threads = s.threads.set i q)
    (hc : s'.core = s.core) (hlk : s'.locked = s.locked) (hreg : s'.reg = s.reg)
    (hq : TInv s.core q)
    (k1 : isPre q = 0 ∧ isPre p = 0) (k2 : isPush q = isPush p ∨ (s.status = .started ∧ isPush p ≤ isPush q ∧ isLocker p = 1)) (k3 : isLocker q = isLocker p)
    (k2' : isPush q ≤ isLocker q)
    (uniq : s'.attached = s.attached) (n1 : s'.accepted = s.accepted) (n2 : s'.removed = s.removed) (n3 : s'.refused = s.refused)
    (k4 : ∀ h, pend h q = pend h p)
    (c2 : ∀ h, s'.called.count h + lst h q = s.called.count h + lst h p)
    (c3 : ∀ h, s'.lateCalled.count h + rfsd h q = s.lateCalled.count h + rfsd h p)
    (c4 : ∀ h, s'.called.count h + s'.lateCalled.count h + (s.outcomes.map (·.1)).count h + inCall h p =
               s.called.count h + s.lateCalled.count h + (s'.outcomes.map (·.1)).count h + inCall h q)
    (hout : ∀ o ∈ s'.outcomes, s.status ≠ .started ∧ (o.2.1 ≠ some false → ∃ k, s.wins = [k] ∧ o.2.2 = expected k))
    (hcf : s'.called ≠ [] → Fin s.core) : Inv s' := by
  have ⟨w, g, T, pre1, pre0, done, lock, push, uniq', cnt1, cnt2, cnt3, cnt4, outs, calledFin, refusedSt⟩ := hI
  obtain ⟨u1, u2, u3, u4, u5, u6, u7⟩ := sums_of h q
  rw [← hs] at u1 u2 u3 u4 u5 u6 u7
  have e1 : s'.wins = s.wins := congrArg Core.wins hc
  have e2 : s'.status = s.status := congrArg Core.status hc
  have e3 : s'.hr = s.hr := congrArg Core.hr hc
  have l1 := le_sumBy isLocker _ _ _ h
  constructor
  case w => rw [e1, e2]; exact w
  case g => rw [e3, hc]; exact g
  case T => rw [hs, hc]; exact T_set hI hq (fun j t _ _ h => h)
  case pre1 => omega
  case pre0 => rw [e2]; intro h; have := pre0 h; omega
  case done =>
    rw [e2, e3, hreg]; intro h h'
    obtain ⟨d1, d2, d3⟩ := done h (by omega)
    refine ⟨d1, ?_, d3⟩
    rcases k2 with k2 | k2
    · omega
    · exact absurd k2.1 h
  case lock => rw [hlk]; omega
  case push => 
    have ha : isPush p ≤ isLocker p := by cases p <;> simp [isPush, isLocker]
    have hb := sumBy_set (fun t => isLocker t - isPush t) _ _ q _ h
    have hc : ∀ l : List PC, sumBy (fun t => isLocker t - isPush t) l + sumBy isPush l = sumBy isLocker l := by
      intro l
      induction l with
      | nil => rfl
      | cons a l ih =>
        have : isPush a ≤ isLocker a := by cases a <;> simp [isPush, isLocker]
        simp; omega
    have := hc s'.threads
    omega
  case uniq => rw [uniq]; exact uniq'
  case cnt1 => intro x; have := cnt1 x; have := u4 x; have := k4 x; rw [uniq, n1, n3]; omega
  case cnt2 => intro x; have := cnt2 x; have := u6 x; have := c2 x; rw [n1, n2, hreg]; omega
  case cnt3 => intro x; have := cnt3 x; have := u5 x; have := c3 x; rw [n3]; omega
  case cnt4 => intro x; have := cnt4 x; have := u7 x; have := c4 x; omega
  case outs => rw [e2, e1]; exact hout
  case calledFin => rw [hc]; exact hcf
  case refusedSt => rw [n3, e2]; exact refusedSt

theorem push_le (l : List PC) : sumBy isPush l ≤ sumBy isLocker l := by
  induction l with
  | nil => simp
  | cons a l ih =>
    have : isPush a ≤ isLocker a := by cases a <;> simp [isPush, isLocker]
    simp; omega

theorem inv_step {s s'} (hI : Inv s) (hs : Step s s') : Inv s' := by
  have ⟨w, g, T, pre1, pre0, done, lock, push, uniq, cnt1, cnt2, cnt3, cnt4, outs, calledFin, refusedSt⟩ := hI
  cases hs with
  | lose i k h hs => exact hI
  | win i k h hs =>
    obtain ⟨u1, u2, u3, u4, u5, u6, u7⟩ := sums_of h (.writeValue k)
    have hw : s.wins = [] := by
      rcases w with w | ⟨k, w1, w2⟩
      · exact w.1
      · exact absurd (w2 ▸ hs) k.status_ne
    have hnf : ¬ Fin s.core := by rintro ⟨k, hk, -⟩; simp [St.core, hw] at hk
    have hhr : s.hr = E_PENDING := by rcases g with g | g; exact g; exact absurd g hnf
    have hk := k.status_ne
    have p0 := pre0 hs
    constructor
    case w => exact .inr ⟨k, by simp [hw], rfl⟩
    case g => exact .inl hhr
    case T =>
      refine T_set hI ⟨by simp [hw, St.core], hhr⟩ ?_
      intro j t hj ht htt
      exact tinv_win hw hs htt
    case pre1 => simp only [isPre] at *; omega
    case pre0 => intro h; exact absurd h hk
    case done => intro _ h'; simp only [isPre] at *; omega
    case lock => simp only [isLocker] at *; omega
    case push => exact push_le _
    case uniq => exact uniq
    case cnt1 => intro x; have := cnt1 x; have := u4 x; simp only [pend] at *; omega
    case cnt2 => intro x; have := cnt2 x; have := u6 x; simp only [lst] at *; omega
    case cnt3 => intro x; have := cnt3 x; have := u5 x; simp only [rfsd] at *; omega
    case cnt4 => intro x; have := cnt4 x; have := u7 x; simp only [inCall] at *; omega
    case outs => intro o ho; exact absurd hs (outs o ho).1
    case calledFin => intro h; exact absurd (calledFin h) hnf
    case refusedSt => intro _; exact hk
  | writeValue i k h =>
    obtain ⟨u1, u2, u3, u4, u5, u6, u7⟩ := sums_of h (.writeHr k)
    obtain ⟨t1, t2⟩ := T i _ h
    obtain ⟨v1, v2⟩ := hI.ne_started t1
    have l1 := le_sumBy isPre _ _ _ h
    have hnf : ¬ Fin s.core := fun h => fin_ne h t2
    constructor
    case w => exact w
    case g => exact .inl t2
    case T =>
      refine T_set hI ⟨t1, t2, rfl, rfl⟩ ?_
      intro j t hj ht htt
      exact tinv_write (c := s.core) t2 (by rfl) (other_pre hI h rfl hj ht) htt
    case pre1 => simp only [isPre] at *; omega
    case pre0 => intro h; exact absurd h v2
    case done => intro _ h'; simp only [isPre] at *; omega
    case lock => simp only [isLocker] at *; omega
    case push => exact push_le _
    case uniq => exact uniq
    case cnt1 => intro x; have := cnt1 x; have := u4 x; simp only [pend] at *; omega
    case cnt2 => intro x; have := cnt2 x; have := u6 x; simp only [lst] at *; omega
    case cnt3 => intro x; have := cnt3 x; have := u5 x; simp only [rfsd] at *; omega
    case cnt4 => intro x; have := cnt4 x; have := u7 x; simp only [inCall] at *; omega
    case outs => exact outs
    case calledFin => intro h; exact absurd (calledFin h) hnf
    case refusedSt => exact refusedSt
  | writeHr i k h =>
    obtain ⟨u1, u2, u3, u4, u5, u6, u7⟩ := sums_of h .swap
    obtain ⟨t1, t2, t3, t4⟩ := T i _ h
    obtain ⟨v1, v2⟩ := hI.ne_started t1
    have l1 := le_sumBy isPre _ _ _ h
    have hnf : ¬ Fin s.core := fun h => fin_ne h t2
    have hf : Fin { s with hr := k.hr, threads := s.threads.set i .swap }.core := ⟨k, t1, v1, rfl, t3, t4⟩
    constructor
    case w => exact w
    case g => exact .inr hf
    case T =>
      refine T_set hI hf ?_
      intro j t hj ht htt
      exact tinv_write (c := s.core) t2 (by rfl) (other_pre hI h rfl hj ht) htt
    case pre1 => simp only [isPre] at *; omega
    case pre0 => intro h; exact absurd h v2
    case done => intro _ h'; simp only [isPre] at *; omega
    case lock => simp only [isLocker] at *; omega
    case push => exact push_le _
    case uniq => exact uniq
    case cnt1 => intro x; have := cnt1 x; have := u4 x; simp only [pend] at *; omega
    case cnt2 => intro x; have := cnt2 x; have := u6 x; simp only [lst] at *; omega
    case cnt3 => intro x; have := cnt3 x; have := u5 x; simp only [rfsd] at *; omega
    case cnt4 => intro x; have := cnt4 x; have := u7 x; simp only [inCall] at *; omega
    case outs => exact outs
    case calledFin => intro _; exact hf
    case refusedSt => exact refusedSt
  | swap i h hl =>
    obtain ⟨u1, u2, u3, u4, u5, u6, u7⟩ := sums_of h (.invoke s.reg)
    have t1 : Fin s.core := T i _ h
    have l1 := le_sumBy isPre _ _ _ h
    simp [hl] at lock
    constructor
    case w => exact w
    case g => exact g
    case T => exact T_set hI t1 (fun j t _ _ h => h)
    case pre1 => simp only [isPre] at *; omega
    case pre0 => intro h; have := pre0 h; simp only [isPre] at *; omega
    case done =>
      intro _ h'
      refine ⟨rfl, ?_, fin_ne t1⟩
      simp only [isPush] at *; omega
    case lock => simp [hl]; simp only [isLocker] at *; omega
    case push => exact push_le _
    case uniq => exact uniq
    case cnt1 => intro x; have := cnt1 x; have := u4 x; simp only [pend] at *; omega
    case cnt2 => intro x; have := cnt2 x; have := u6 x; simp only [lst, List.count_nil] at *; omega
    case cnt3 => intro x; have := cnt3 x; have := u5 x; simp only [rfsd] at *; omega
    case cnt4 => intro x; have := cnt4 x; have := u7 x; simp only [inCall] at *; omega
    case outs => exact outs
    case calledFin => exact calledFin
    case refusedSt => exact refusedSt
  | invoke i x rest h =>
    have t1 : Fin s.core := T i _ h
    obtain ⟨k, t2, -⟩ := t1
    obtain ⟨v1, v2⟩ := hI.ne_started t2
    have t1 : Fin s.core := T i _ h
    refine inv_quiet hI h rfl rfl rfl rfl ⟨v2, rfl, fun _ => t1, fun h => absurd rfl h⟩ ⟨rfl, rfl⟩ (.inl rfl) rfl (Nat.le_refl _) rfl rfl rfl rfl (fun _ => rfl) ?_ ?_ ?_ outs (fun _ => t1)
    · intro y; simp only [lst, count_cons']; omega
    · intro y; rfl
    · intro y; simp only [inCall, count_cons']; omega
  | invokeEnd i h =>
    refine inv_quiet hI h rfl rfl rfl rfl trivial ⟨rfl, rfl⟩ (.inl rfl) rfl (Nat.le_refl _) rfl rfl rfl rfl (fun _ => rfl) ?_ ?_ ?_ outs calledFin
    all_goals intro y; simp [lst, rfsd, inCall]
  | addLock i x h hl hx =>
    obtain ⟨u1, u2, u3, u4, u5, u6, u7⟩ := sums_of h (.addLocked x)
    simp [hl] at lock
    constructor
    case w => exact w
    case g => exact g
    case T => exact T_set hI trivial (fun j t _ _ h => h)
    case pre1 => simp only [isPre] at *; omega
    case pre0 => intro h; have := pre0 h; simp only [isPre] at *; omega
    case done =>
      intro a b
      obtain ⟨d1, d2, d3⟩ := done a (by simp only [isPre] at *; omega)
      refine ⟨d1, by simp only [isPush] at *; omega, d3⟩
    case lock => simp; simp only [isLocker] at *; omega
    case push => exact push_le _
    case uniq =>
      intro y; have := uniq y; simp only [count_cons', ind]; split
      · rename_i e; subst e; have := List.count_eq_zero.2 hx; omega
      · omega
    case cnt1 => intro x; have := cnt1 x; have := u4 x; simp only [pend, count_cons'] at *; omega
    case cnt2 => intro x; have := cnt2 x; have := u6 x; simp only [lst] at *; omega
    case cnt3 => intro x; have := cnt3 x; have := u5 x; simp only [rfsd] at *; omega
    case cnt4 => intro x; have := cnt4 x; have := u7 x; simp only [inCall] at *; omega
    case outs => exact outs
    case calledFin => exact calledFin
    case refusedSt => exact refusedSt
  | addOk i x h hs =>
    refine inv_quiet hI h rfl rfl rfl rfl trivial ⟨rfl, rfl⟩ (.inr ⟨hs, by simp [isPush], rfl⟩) rfl (Nat.le_refl _) rfl rfl rfl rfl (fun _ => rfl) ?_ ?_ ?_ outs calledFin
    all_goals intro y; simp [lst, rfsd, inCall]
  | addRefuse i x h hs =>
    obtain ⟨u1, u2, u3, u4, u5, u6, u7⟩ := sums_of h (.refused x (decide (s.hr ≠ E_PENDING)))
    have l1 := le_sumBy isLocker _ _ _ h
    constructor
    case w => exact w
    case g => exact g
    case T =>
      refine T_set hI ⟨hs, ?_⟩ (fun j t _ _ h => h)
      intro hp
      simp at hp
      rcases g with g | g
      · exact absurd g hp
      · exact g
    case pre1 => simp only [isPre] at *; omega
    case pre0 => intro h; have := pre0 h; simp only [isPre] at *; omega
    case done =>
      intro a b
      obtain ⟨d1, d2, d3⟩ := done a (by simp only [isPre] at *; omega)
      refine ⟨d1, by simp only [isPush] at *; omega, d3⟩
    case lock => simp only [isLocker] at *; split at lock <;> simp only [Bool.false_eq_true, if_false] <;> omega
    case push => exact push_le _
    case uniq => exact uniq
    case cnt1 => intro x; have := cnt1 x; have := u4 x; simp only [pend, count_cons'] at *; omega
    case cnt2 => intro x; have := cnt2 x; have := u6 x; simp only [lst] at *; omega
    case cnt3 => intro x; have := cnt3 x; have := u5 x; simp only [rfsd, count_cons'] at *; omega
    case cnt4 => intro x; have := cnt4 x; have := u7 x; simp only [inCall] at *; omega
    case outs => exact outs
    case calledFin => exact calledFin
    case refusedSt => intro _; exact hs
  | addPush i x h =>
    obtain ⟨u1, u2, u3, u4, u5, u6, u7⟩ := sums_of h .idle
    have l1 := le_sumBy isLocker _ _ _ h
    have l2 := le_sumBy isPush _ _ _ h
    constructor
    case w => exact w
    case g => exact g
    case T => exact T_set hI trivial (fun j t _ _ h => h)
    case pre1 => simp only [isPre] at *; omega
    case pre0 => intro h; have := pre0 h; simp only [isPre] at *; omega
    case done =>
      intro a b
      obtain ⟨d1, d2, d3⟩ := done a (by simp only [isPre] at *; omega)
      simp only [isPush] at *; omega
    case lock => simp; simp only [isLocker] at *; split at lock <;> omega
    case push => exact push_le _
    case uniq => exact uniq
    case cnt1 => intro x; have := cnt1 x; have := u4 x; simp only [pend, count_cons'] at *; omega
    case cnt2 => intro y; have := cnt2 y; have := u6 y; simp only [lst, count_cons', List.count_append, List.count_nil] at *; omega
    case cnt3 => intro x; have := cnt3 x; have := u5 x; simp only [rfsd, count_cons'] at *; omega
    case cnt4 => intro x; have := cnt4 x; have := u7 x; simp only [inCall] at *; omega
    case outs => exact outs
    case calledFin => exact calledFin
    case refusedSt => exact refusedSt
  | remove i x h hl hx =>
    refine ⟨w, g, T, pre1, pre0, ?_, lock, push, uniq, cnt1, ?_, cnt3, cnt4, outs, calledFin, refusedSt⟩
    · intro a b
      obtain ⟨d1, d2, d3⟩ := done a b
      exact ⟨by simp [d1], d2, d3⟩
    · intro y
      have := cnt2 y
      have hp := List.count_pos_iff.2 hx
      simp only [count_cons', List.count_erase, ind, beq_iff_eq]
      grind
  | lateCall i x p h =>
    obtain ⟨t1, t2⟩ := T i _ h
    refine inv_quiet hI h rfl rfl rfl rfl ⟨t1, rfl, fun h => t2 (by cases p; exact absurd rfl h; rfl), fun _ => rfl⟩ ⟨rfl, rfl⟩ (.inl rfl) rfl (Nat.le_refl _) rfl rfl rfl rfl (fun _ => rfl) ?_ ?_ ?_ outs calledFin
    · intro y; simp [lst]
    · intro y; simp only [rfsd, count_cons']; omega
    · intro y; simp only [inCall, count_cons']; omega
  | callOk i x late rest h hh =>
    obtain ⟨t1, t2, t3, t4⟩ := T i _ h
    have hf : Fin s.core := by rcases g with g | g; exact absurd g hh; exact g
    refine inv_quiet (q := after late rest) hI h rfl rfl rfl rfl ?_ ⟨?_, rfl⟩ (.inl ?_) ?_ ?_ rfl rfl rfl rfl ?_ ?_ ?_ ?_ ?_ calledFin
    · simp only [after]; split; trivial; exact hf
    · simp only [after]; split <;> rfl
    · simp only [after]; split <;> rfl
    · simp only [after]; split <;> rfl
    · simp only [after]; split <;> exact Nat.le_refl _
    · intro y; simp only [after]; split <;> rfl
    · intro y; simp only [after, lst]; cases late <;> simp [lst]; rw [t4 (by simp)]; rfl
    · intro y; simp only [after]; split <;> rfl
    · intro y; simp only [after, List.map_cons, count_cons', inCall]; cases late <;> simp [inCall] <;> omega
    · intro o ho
      rcases List.mem_cons.1 ho with rfl | ho
      · exact ⟨t1, fun _ => fin_ran hf t2.symm⟩
      · exact outs o ho
  | readEptr i x st late rest h hst =>
    obtain ⟨t1, t2, t3, t4⟩ := T i _ h
    refine inv_quiet hI h rfl rfl rfl rfl ⟨t1, t2 ▸ hst, fun h => ⟨t3 h, rfl⟩, t4⟩ ⟨rfl, rfl⟩ (.inl rfl) rfl (Nat.le_refl _) rfl rfl rfl rfl (fun _ => rfl) ?_ ?_ ?_ outs calledFin
    all_goals intro y; simp [lst, rfsd, inCall]
  | readHr i x st late rest h hst =>
    obtain ⟨t1, t2, t3, t4⟩ := T i _ h
    refine inv_quiet hI h rfl rfl rfl rfl ⟨t1, t2 ▸ hst, fun h => ⟨t3 h, rfl⟩, t4⟩ ⟨rfl, rfl⟩ (.inl rfl) rfl (Nat.le_refl _) rfl rfl rfl rfl (fun _ => rfl) ?_ ?_ ?_ outs calledFin
    all_goals intro y; simp [lst, rfsd, inCall]
  | failE i x e late rest h =>
    obtain ⟨t1, t2, t3, t4⟩ := T i _ h
    refine inv_quiet (q := after late rest) hI h rfl rfl rfl rfl ?_ ⟨?_, rfl⟩ (.inl ?_) ?_ ?_ rfl rfl rfl rfl ?_ ?_ ?_ ?_ ?_ calledFin
    · cases late with
      | none => exact (t3 (by simp)).1
      | some b => trivial
    · simp only [after]; split <;> rfl
    · simp only [after]; split <;> rfl
    · simp only [after]; split <;> rfl
    · simp only [after]; split <;> exact Nat.le_refl _
    · intro y; simp only [after]; split <;> rfl
    · intro y; simp only [after, lst]; cases late <;> simp [lst]; rw [t4 (by simp)]; rfl
    · intro y; simp only [after]; split <;> rfl
    · intro y; simp only [after, List.map_cons, count_cons', inCall]; cases late <;> simp [inCall] <;> omega
    · intro o ho
      rcases List.mem_cons.1 ho with rfl | ho
      · refine ⟨t1, fun hl => ?_⟩
        obtain ⟨f1, f2⟩ := t3 hl
        rw [f2]; exact fin_expected f1 t2
      · exact outs o ho
  | failH i x e late rest h =>
    obtain ⟨t1, t2, t3, t4⟩ := T i _ h
    refine inv_quiet (q := after late rest) hI h rfl rfl rfl rfl ?_ ⟨?_, rfl⟩ (.inl ?_) ?_ ?_ rfl rfl rfl rfl ?_ ?_ ?_ ?_ ?_ calledFin
    · cases late with
      | none => exact (t3 (by simp)).1
      | some b => trivial
    · simp only [after]; split <;> rfl
    · simp only [after]; split <;> rfl
    · simp only [after]; split <;> rfl
    · simp only [after]; split <;> exact Nat.le_refl _
    · intro y; simp only [after]; split <;> rfl
    · intro y; simp only [after, lst]; cases late <;> simp [lst]; rw [t4 (by simp)]; rfl
    · intro y; simp only [after]; split <;> rfl
    · intro y; simp only [after, List.map_cons, count_cons', inCall]; cases late <;> simp [inCall] <;> omega
    · intro o ho
      rcases List.mem_cons.1 ho with rfl | ho
      · refine ⟨t1, fun hl => ?_⟩
        obtain ⟨f1, f2⟩ := t3 hl
        rw [f2]; exact fin_expected f1 t2
      · exact outs o ho

theorem inv_reach {s} (h : Reach s) : Inv s := by
  induction h with
  | init s h => exact inv_init h
  | step s s' _ hs ih => exact inv_step ih hs

end Verif.Async
