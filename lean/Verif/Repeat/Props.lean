import Verif.Repeat.Model

/-!
# C114: a repeating timer keeps its interval

What a user relies on: the callback of a timer with the interval `I` is called at most every `I`, first `I` after `CreateTimer`, until it returns `false` or the timer is cancelled.  The code keeps this up to a millisecond
(partial), and that millisecond counts in every round: a timer of 1 ms may run without any pause.
-/
namespace Verif.Repeat

/-- the times are `I` apart, with less than a millisecond missing; `t0` is the time before the first -/
def Apart (K I t0 : Nat) : List Nat → Prop
  | [] => True
  | a :: r => r.headD t0 + I < a + K ∧ Apart K I t0 r

/-- the invariant: what is known about the expiry at every place -/
structure Inv (K I t0 : Nat) (s : St) : Prop where
  apart : Apart K I t0 s.runs
  next : match s.pc with
    | .setting => s.exp = s.runs.headD t0 + I
    | .poolSet => s.exp = s.runs.headD t0 + I
    | .wheel => s.exp = s.runs.headD t0 + I
    | .sys due => s.runs.headD t0 + I < due + K
    | .queued => s.cancelled = true ∨ s.runs.headD t0 + I < s.now + K
    | .cb e => e = s.runs.headD t0 + I
    | .over => True
  past : s.last ≤ s.now

theorem atOnce_lt {K exp now : Nat} (hK : 0 < K) (h : atOnce K exp now = true) (he : 0 < exp) : exp < now + K := by
  unfold atOnce at h
  simp only [Bool.or_eq_true, decide_eq_true_eq] at h
  rcases h with h | h
  · omega
  · have : (exp - now) / K = 0 := Nat.le_zero.1 h
    rw [Nat.div_eq_zero_iff] at this
    omega

theorem div_lt {K a b : Nat} (hK : 0 < K) (h : a / K ≤ b / K) : a < b + K := by
  have h1 := Nat.lt_mul_div_succ a hK
  have h2 := Nat.mul_div_le b K
  have h3 := Nat.mul_le_mul_left K (Nat.succ_le_succ h)
  simp only [Nat.succ_eq_add_one, Nat.mul_add] at h3
  rw [Nat.mul_add] at h1
  omega

theorem inv_step {kind K I t0 s s'} (hK : 0 < K) (hI : 0 < I) (hlim : I ≤ 4294967295 * K) (h0 : ∀ a ∈ s.runs, a ≤ s.now) (ht0 : t0 ≤ s.now)
    (i : Inv K I t0 s) (h : Step kind K I s s') : Inv K I t0 s' := by
  obtain ⟨ap, nx, pa⟩ := i
  have hh : s.runs.headD t0 ≤ s.now := by
    cases hr : s.runs with
    | nil => exact ht0
    | cons a r => exact h0 a (by rw [hr]; exact List.mem_cons_self)
  cases h with
  | tick d =>
    refine ⟨ap, ?_, Nat.le_trans pa (Nat.le_add_right _ _)⟩
    dsimp only
    split at nx
    all_goals first | exact nx | (rcases nx with h | h; exact .inl h; exact .inr (by omega))
  | cancel =>
    refine ⟨ap, ?_, pa⟩
    dsimp only
    split at nx
    all_goals first | exact nx | exact .inl rfl
  | refuse => exact ⟨ap, trivial, pa⟩
  | post hp _ ha =>
    rw [hp] at nx
    have := atOnce_lt hK ha (by dsimp only at nx; omega)
    exact ⟨ap, .inr (by dsimp only at nx ⊢; omega), pa⟩
  | toPool hp _ _ => rw [hp] at nx; exact ⟨ap, nx, pa⟩
  | poolNow hp hd =>
    rw [hp] at nx
    have : (s.exp - s.now) / K = 0 := Nat.le_zero.1 hd
    rw [Nat.div_eq_zero_iff] at this
    exact ⟨ap, .inr (by dsimp only at nx ⊢; omega), pa⟩
  | poolArm hp hd =>
    rw [hp] at nx
    refine ⟨ap, ?_, pa⟩
    dsimp only at nx ⊢
    have h1 := Nat.lt_mul_div_succ (s.exp - s.now) hK
    rw [Nat.mul_comm, Nat.add_mul, Nat.one_mul] at h1
    by_cases hm : (s.exp - s.now) / K ≤ 4294967295
    · rw [Nat.min_eq_left hm]; omega
    · rw [Nat.min_eq_right (by omega)]
      omega
  | fire due hp hd => rw [hp] at nx; exact ⟨ap, .inr (by dsimp only at nx ⊢; omega), pa⟩
  | toWheel hp _ =>
    rw [hp] at nx
    refine ⟨ap, ?_, pa⟩
    dsimp only at nx ⊢
    by_cases hl : s.exp ≤ s.last
    · rw [if_pos hl]; exact .inr (by omega)
    · rw [if_neg hl]; exact nx
  | process _ => exact ⟨ap, nx, Nat.le_refl _⟩
  | due hp hd =>
    rw [hp] at nx
    refine ⟨ap, ?_, Nat.le_refl _⟩
    dsimp only at nx ⊢
    rcases hd with hd | hd
    · right; have := div_lt hK hd; omega
    · exact .inl hd
  | drop => exact ⟨ap, trivial, pa⟩
  | run hp hc =>
    rw [hp] at nx
    refine ⟨⟨?_, ap⟩, rfl, pa⟩
    rcases nx with h | h
    · rw [hc] at h; cases h
    · exact h
  | again e hp => rw [hp] at nx; exact ⟨ap, nx, pa⟩
  | stop => exact ⟨ap, trivial, pa⟩

theorem time_step {kind K I t0 s s'} (h0 : ∀ a ∈ s.runs, a ≤ s.now) (ht0 : t0 ≤ s.now) (h : Step kind K I s s') : (∀ a ∈ s'.runs, a ≤ s'.now) ∧ t0 ≤ s'.now := by
  cases h with
  | tick d => exact ⟨fun a ha => Nat.le_trans (h0 a ha) (Nat.le_add_right _ _), Nat.le_trans ht0 (Nat.le_add_right _ _)⟩
  | run hp hc =>
    refine ⟨fun a ha => ?_, ht0⟩
    rcases List.mem_cons.1 ha with ha | ha
    · rw [ha]; exact Nat.le_refl _
    · exact h0 a ha
  | _ => exact ⟨h0, ht0⟩

theorem create_some {K I now last s} (hK : 0 < K) (hc : create K I now last = some s) :
    K ≤ I ∧ s = { now := now, exp := now + I, pc := .setting, last := last } := by
  unfold create at hc
  split at hc
  · cases hc
  · rename_i h
    cases hc
    refine ⟨Classical.byContradiction fun hn => h ?_, rfl⟩
    rw [Nat.div_eq_of_lt (by omega)]
    exact Nat.le_refl 0

theorem inv_steps {kind K I now last s0 s} (hK : 0 < K) (hlim : I ≤ 4294967295 * K) (hl : last ≤ now) (hc : create K I now last = some s0) (r : Steps kind K I s0 s) :
    Inv K I now s ∧ (∀ a ∈ s.runs, a ≤ s.now) ∧ now ≤ s.now := by
  obtain ⟨hI, rfl⟩ := create_some hK hc
  induction r with
  | refl => exact ⟨⟨trivial, rfl, hl⟩, by simp, Nat.le_refl _⟩
  | step _ st ih =>
    obtain ⟨i, h1, h2⟩ := ih
    exact ⟨inv_step hK (by omega) hlim h1 h2 i st, time_step h1 h2 st⟩

/-- **C114 (partial: up to a millisecond per round).**  In every history of a repeating timer on any runner, each call of the callback begins at least the interval after the beginning of the previous one (the first: after
`CreateTimer`), with less than a millisecond missing.  The millisecond can be missing in each round: `C114_tight_fails`. -/
theorem C114_apart_partial {kind K I now last s0 s} (hK : 0 < K) (hlim : I ≤ 4294967295 * K) (hl : last ≤ now) (hc : create K I now last = some s0) (r : Steps kind K I s0 s) :
    Apart K I now s.runs := (inv_steps hK hlim hl hc r).1.apart

theorem apart_sum {K I t0 : Nat} : ∀ {l : List Nat}, Apart K I t0 l → l.length * I + t0 ≤ l.headD t0 + l.length * K - l.length ∧ l.length ≤ l.length * K + l.headD t0
  | [], _ => by simp
  | a :: r, ⟨h, hr⟩ => by
    obtain ⟨h1, h2⟩ := apart_sum hr
    simp only [List.length_cons, List.headD_cons, Nat.add_mul, Nat.one_mul]
    omega

/-- **C114 (partial).**  The number of calls is bounded by the time that has passed: `n` calls take at least `n` times the interval less a millisecond. -/
theorem C114_rate_partial {kind K I now last s0 s} (hK : 0 < K) (hlim : I ≤ 4294967295 * K) (hl : last ≤ now) (hc : create K I now last = some s0) (r : Steps kind K I s0 s) :
    s.runs.length * (I + 1 - K) ≤ s.now - now := by
  obtain ⟨i, h1, h2⟩ := inv_steps hK hlim hl hc r
  obtain ⟨hI, _⟩ := create_some hK hc
  obtain ⟨h3, h4⟩ := apart_sum i.apart
  have hh : s.runs.headD now ≤ s.now := by
    cases hr : s.runs with
    | nil => exact h2
    | cons a r => exact h1 a (by rw [hr]; exact List.mem_cons_self)
  have e : s.runs.length * (I + 1 - K) + s.runs.length * K = s.runs.length * I + s.runs.length := by
    rw [← Nat.mul_add, show I + 1 - K + K = I + 1 by omega, Nat.mul_add, Nat.mul_one]
  omega

/-- an interval below a millisecond is refused -/
theorem C114_short {K I now last : Nat} (h : I < K) : create K I now last = none := by
  unfold create
  rw [if_pos]
  rw [Nat.div_eq_of_lt h]
  exact Nat.le_refl 0

/-- once the callback has returned `false`, the callback is never called again -/
theorem C114_stop {kind K I s s'} (h : s.pc = .over) (r : Steps kind K I s s') : s'.pc = .over ∧ s'.runs = s.runs := by
  induction r with
  | refl => exact ⟨h, rfl⟩
  | step _ st ih =>
    obtain ⟨h1, h2⟩ := ih
    cases st with
    | tick => exact ⟨h1, h2⟩
    | cancel => exact ⟨h1, h2⟩
    | process => exact ⟨h1, h2⟩
    | refuse => exact ⟨rfl, h2⟩
    | drop => exact ⟨rfl, h2⟩
    | stop => exact ⟨rfl, h2⟩
    | fire _ hp => rw [h1] at hp; cases hp
    | again _ hp => rw [h1] at hp; cases hp
    | _ hp => rw [h1] at hp; cases hp

/-- once the timer is cancelled, at most the call that is already running is finished: no call begins any more -/
theorem C114_cancel {kind K I s s'} (h : s.cancelled = true) (r : Steps kind K I s s') : s'.cancelled = true ∧ s'.runs = s.runs := by
  induction r with
  | refl => exact ⟨h, rfl⟩
  | step _ st ih =>
    obtain ⟨h1, h2⟩ := ih
    cases st with
    | run hp hc => rw [h1] at hc; cases hc
    | cancel => exact ⟨rfl, h2⟩
    | _ => exact ⟨h1, h2⟩

/-- the times of `n + 1` calls, the latest first, that begin at `a` and are `d` apart -/
def every (a d : Nat) : Nat → List Nat
  | 0 => [a]
  | n + 1 => (a + (n + 1) * d) :: every a d n

theorem every_head (a d n t) : (every a d n).headD t = a + n * d := by
  cases n with
  | zero => simp [every]
  | succ n => rfl

theorem spin {kind : Kind} {K I : Nat} {s0 : St} (hk : kind ≠ .proxy) (hK : 0 < K) (hI : K ≤ I) {a : Nat} :
    ∀ n, ∀ {s1 : St}, Steps kind K I s0 s1 → s1.pc = .queued → s1.cancelled = false → s1.now = a → s1.runs = [] →
      ∃ s, Steps kind K I s0 s ∧ s.pc = .cb (a + n * (I + 1 - K) + I) ∧ s.cancelled = false ∧ s.now = a + n * (I + 1 - K) ∧ s.runs = every a (I + 1 - K) n
  | 0, s1, r, hp, hc, hn, hr => ⟨_, .step r (.run _ hp hc), by simp [hn], hc, by simp [hn], by simp [hr, hn, every]⟩
  | n + 1, s1, r, hp, hc, hn, hr => by
    obtain ⟨s, rs, h1, h2, h3, h4⟩ := spin hk hK hI n r hp hc hn hr
    have e : (n + 1) * (I + 1 - K) = n * (I + 1 - K) + (I + 1 - K) := by rw [Nat.add_mul, Nat.one_mul]
    have ha : atOnce K (a + n * (I + 1 - K) + I) (s.now + (I + 1 - K)) = true := by
      unfold atOnce
      have : (a + n * (I + 1 - K) + I - (s.now + (I + 1 - K))) / K = 0 := by
        rw [Nat.div_eq_zero_iff]; omega
      simp [this]
    refine ⟨_, .step (.step (.step (.step rs (.tick s (I + 1 - K))) (.again _ _ h1)) (.post _ rfl hk ha)) (.run _ rfl h2), ?_, h2, ?_, ?_⟩
    · show Pc.cb (s.now + (I + 1 - K) + I) = _
      rw [h3, e, Nat.add_assoc a]
    · show s.now + (I + 1 - K) = _
      rw [h3, e, Nat.add_assoc a]
    · show (s.now + (I + 1 - K)) :: s.runs = _
      rw [h3, h4, every, e, Nat.add_assoc a]

/-- **C114 fails: a millisecond is missing in every round** – on a pool or thread runner, for every interval.  If the callback takes the interval less a millisecond (and a tick), the rest is below a millisecond and the timer is posted
at once; any number of calls follow each other that closely.  With an interval of 1 ms the callback only needs to take one tick: it is called again and again without a pause. -/
theorem C114_tight_fails {kind : Kind} {K I now last : Nat} (hk : kind ≠ .proxy) (hK : 0 < K) (hI : K ≤ I) (n : Nat) :
    ∃ s0 s, create K I now last = some s0 ∧ Steps kind K I s0 s ∧ s.runs = every (now + I) (I + 1 - K) n := by
  have hc : create K I now last = some { now := now, exp := now + I, pc := .setting, last := last } := by
    unfold create
    rw [if_neg]
    have := Nat.div_pos hI hK
    omega
  have ha : atOnce K (now + I) (now + I) = true := by unfold atOnce; simp
  obtain ⟨s, r, _, _, _, h⟩ := spin (s0 := { now := now, exp := now + I, pc := .setting, last := last }) (a := now + I) hk hK hI n
    (.step (.step .refl (.tick _ I)) (.post _ rfl hk ha)) rfl rfl rfl rfl
  exact ⟨_, s, hc, r, h⟩

/-- a timer of 1 ms with 10 000 ticks per millisecond: 10 001 calls within one millisecond -/
theorem C114_tight_example : ∃ s0 s, create 10000 10000 0 0 = some s0 ∧ Steps .thread 10000 10000 s0 s ∧ s.runs.length = 10001 ∧ s.runs.headD 0 = 20000 := by
  obtain ⟨s0, s, h1, h2, h3⟩ := C114_tight_fails (kind := .thread) (now := 0) (last := 0) (by decide) (by decide : 0 < 10000) (Nat.le_refl 10000) 10000
  refine ⟨s0, s, h1, h2, ?_, ?_⟩
  · have : ∀ a d n, (every a d n).length = n + 1 := by
      intro a d n
      induction n with
      | zero => rfl
      | succ n ih => simp [every, ih]
    rw [h3, this]
  · rw [h3, every_head]

/-- a case for the positive theorems: a timer of 20 ms on a pool runner (10 ticks per ms), called at 200 and, by way of the system timer, 195 ticks later, half a millisecond early -/
theorem C114_example : ∃ s0 s, create 10 200 0 0 = some s0 ∧ Steps .pool 10 200 s0 s ∧ s.runs = [395, 200] :=
  ⟨_, _, rfl, .step (.step (.step (.step (.step (.step (.step (.step (.step (.step (.step (.step .refl
      (.toPool _ rfl rfl rfl)) (.poolArm _ rfl (by decide))) (.tick _ 200)) (.fire _ 200 rfl (by decide))) (.run _ rfl rfl))
      (.tick _ 5)) (.again _ 400 rfl)) (.toPool _ rfl rfl rfl)) (.poolArm _ rfl (by decide))) (.tick _ 190)) (.fire _ 395 rfl (by decide))) (.run _ rfl rfl), rfl⟩

#print axioms C114_apart_partial
#print axioms C114_rate_partial
#print axioms C114_tight_fails
#print axioms C114_stop
#print axioms C114_cancel

end Verif.Repeat
