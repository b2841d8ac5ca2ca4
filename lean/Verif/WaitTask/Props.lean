import Verif.WaitTask.Model

/-!
# C72: a repeating `Wait`

Results and order are right in all schedules. That the `Wait` stays alive until it is cancelled or its callback returns `false` is false:
`NotifyCompletedHandlers` first publishes `hr` and later takes the handlers; in between the runner may have run the callback and set the wait up again,
and the old notification then swallows the new handler (`C72_lost_fails`). Nor is a failing registration reported (`C72_error_fails`).
-/
namespace Verif.WaitTask
open Verif.Common

def cSt : NPc → Nat
  | .store => 1
  | _ => 0
def cHr : NPc → Nat
  | .hr => 1
  | _ => 0
def cSw : NPc → Nat
  | .swap => 1
  | _ => 0
def cK : NPc → Nat
  | .inv k => k
  | _ => 0
/-- the runner has the handler -/
def rTok : RPc → Nat
  | .idle => 0
  | _ => 1
/-- the callback was called in this round -/
def rGot : RPc → Nat
  | .cb | .reset1 | .reset2 => 1
  | _ => 0
/-- before the status is reset -/
def rComp : RPc → Nat
  | .start | .get | .cb | .reset1 | .reset2 => 1
  | _ => 0
def stComp : Status → Nat
  | .completed => 1
  | _ => 0

theorem sum_set {α} (f : α → Nat) {l : List α} {i : Nat} {y : α} (h : l[i]? = some y) (x : α) :
    sumBy f (l.set i x) + f y = sumBy f l + f x := sumBy_set f l i x y h

/-- invariant of all schedules -/
structure Inv (s : St) : Prop where
  pre : sumBy cSt s.ns + sumBy cHr s.ns ≤ 1
  started : s.status = .started → sumBy cSt s.ns + sumBy cHr s.ns = 0 ∧ s.hrDone = false
  hr : s.hrDone = true → sumBy cSt s.ns + sumBy cHr s.ns = 0
  stor : 0 < sumBy cSt s.ns → s.status = .completed
  res : s.status = .completed → sumBy cSt s.ns = 0 → s.res = s.comps
  comps : s.comps = s.resets + stComp s.status
  tok : s.deleg + sumBy cK s.ns + s.queue + rTok s.r + (if s.ended then 1 else 0) ≤ 1
  got : s.got.length = s.resets + rGot s.r + (if s.ended then 1 else 0)
  comp : 0 < s.queue + rComp s.r + (if s.ended then 1 else 0) → s.status = .completed
  list : s.got = List.range' 1 s.got.length
  cw : s.status = .completed → s.hrDone = false → s.r ≠ .reset2 → sumBy cSt s.ns + sumBy cHr s.ns = 1
  reset2 : s.r = .reset2 → sumBy cSt s.ns + sumBy cHr s.ns = 0 ∧ s.hrDone = false
  mid : s.r = .cb ∨ s.r = .reset1 → s.hrDone = true

theorem inv_init : Inv init := by
  constructor <;> simp [init, rTok, rGot, rComp, stComp]

theorem post_le (st : Status) : post st ≤ 1 ∧ (0 < post st → st = .completed) := by cases st <;> simp [post]

theorem inv_step {w f} {s s' : St} (I : Inv s) (st : Step w f s s') : Inv s' := by
  obtain ⟨h1, h2, h3, h4, h5, h6, h7, h8, h9, h10, h11, h12, h13⟩ := I
  cases st with
  | fire p q => 
    have := h2 q
    constructor <;> simp only [sumBy_append, sumBy_cons, sumBy_nil, cSt, cHr, cK] <;> grind [stComp, rComp]
  | fireLose p q => exact ⟨h1, h2, h3, h4, h5, h6, h7, h8, h9, h10, h11, h12, h13⟩
  | store i p =>
    have a := sum_set cSt p .hr; have b := sum_set cHr p .hr; have c := sum_set cK p .hr
    simp only [cSt, cHr, cK] at a b c
    constructor <;> grind [rComp]
  | hr i p =>
    have a := sum_set cSt p .swap; have b := sum_set cHr p .swap; have c := sum_set cK p .swap
    simp only [cSt, cHr, cK] at a b c
    constructor <;> grind [rComp]
  | swap i p =>
    have a := sum_set cSt p (.inv s.deleg); have b := sum_set cHr p (.inv s.deleg); have c := sum_set cK p (.inv s.deleg)
    simp only [cSt, cHr, cK] at a b c
    constructor <;> grind [rComp]
  | invoke i k p =>
    have a := sum_set cSt p (.inv k); have b := sum_set cHr p (.inv k); have c := sum_set cK p (.inv k)
    simp only [cSt, cHr, cK] at a b c
    have d := post_le s.status
    constructor <;> grind [rComp]
  | done i p =>
    have a := sum_set cSt p .over; have b := sum_set cHr p .over; have c := sum_set cK p .over
    simp only [cSt, cHr, cK] at a b c
    constructor <;> grind [rComp]
  | pop p q => constructor <;> grind [rTok, rGot, rComp]
  | runCancel p q => constructor <;> grind [rTok, rGot, rComp]
  | runGo p q => constructor <;> grind [rTok, rGot, rComp]
  | get p q =>
    have e : s.status = .completed := h9 (by simp [p, rComp]; omega)
    have hr := h3 q
    have hres := h5 e (by omega)
    have hl : s.got ++ [s.res] = List.range' 1 (s.got ++ [s.res]).length := by
      have : s.res = 1 + s.got.length := by
        rw [hres, h6, h8, e, p]
        have : s.ended = false := by
          cases he : s.ended
          · rfl
          · simp [he, p, rTok] at h7
        simp [this, stComp, rGot]; omega
      rw [this, List.length_append, List.length_singleton, List.range'_1_concat, ← h10]
    have h8' : (s.got ++ [s.res]).length = s.got.length + 1 := by simp
    constructor <;> simp only [h8'] <;> grind [rTok, rGot, rComp]
  | cbFalse p => constructor <;> grind [rTok, rGot, rComp]
  | cbTrue p => constructor <;> grind [rTok, rGot, rComp]
  | reset1 p q => constructor <;> grind [rTok, rGot, rComp]
  | reset2 p =>
    have e : s.status = .completed := h9 (by simp [p, rComp]; omega)
    constructor <;> grind [rTok, rGot, rComp, stComp]
  | setw p q => constructor <;> grind [rTok, rGot, rComp]
  | setwCancel p q => constructor <;> grind [rTok, rGot, rComp]
  | setwFail _ p q =>
    have := h2 q
    constructor <;> simp only [sumBy_append, sumBy_cons, sumBy_nil, cSt, cHr, cK] <;> grind [rTok, rGot, rComp, stComp]
  | inst p q => constructor <;> grind [rTok, rGot, rComp]
  | instDone p q =>
    have d := post_le s.status
    constructor <;> grind [rTok, rGot, rComp]
  | cancel q =>
    have := h2 q
    constructor <;> simp only [sumBy_append, sumBy_cons, sumBy_nil, cSt, cHr, cK] <;> grind [stComp, rComp]
  | cancelLose q => exact ⟨h1, h2, h3, h4, h5, h6, h7, h8, h9, h10, h11, h12, h13⟩

theorem reach_inv {w f} {s : St} (h : Reach w f s) : Inv s := by
  induction h with
  | init => exact inv_init
  | step _ st ih => exact inv_step ih st

/-! ## Safety, all schedules -/

/-- C72: with any timing, the `k`-th call of the callback gets the result of the `k`-th completion, and there are no more calls than completions. -/
theorem C72_results {w f} {s : St} (h : Reach w f s) : s.got = List.range' 1 s.got.length ∧ s.got.length ≤ s.comps := by
  have I := reach_inv h
  refine ⟨I.list, ?_⟩
  have h8 := I.got
  have h6 := I.comps
  have h9 := I.comp
  have : rGot s.r ≤ rComp s.r := by cases s.r <;> simp [rGot, rComp]
  have : rGot s.r ≤ rTok s.r := by cases s.r <;> simp [rGot, rTok]
  have h7 := I.tok
  by_cases hc : 0 < s.queue + rComp s.r + (if s.ended then 1 else 0)
  · have := h9 hc
    rw [this] at h6
    simp only [stComp] at h6
    omega
  · omega

/-- C72: the `Wait` is in its runner's queue or running, never both nor twice: calls of the callback do not overlap. -/
theorem C72_serial {w f} {s : St} (h : Reach w f s) :
    s.queue ≤ 1 ∧ (s.r ≠ .idle → s.queue = 0) ∧ (s.ended = true → s.queue = 0 ∧ s.r = .idle) := by
  have h7 := (reach_inv h).tok
  refine ⟨by omega, fun hr => ?_, fun he => ?_⟩
  · have : rTok s.r = 1 := by cases hr' : s.r <;> simp_all [rTok]
    omega
  · simp only [he, if_true] at h7
    refine ⟨by omega, ?_⟩
    have h0 : rTok s.r = 0 := by omega
    cases hr : s.r <;> simp [hr, rTok] at h0 ⊢

/-- C72: after the callback returned `false` it is never called again. -/
theorem C72_ended {w f} {s s' : St} (h : Reach w f s) (he : s.ended = true) (hs : Steps w f s s') :
    s'.got = s.got ∧ s'.ended = true := by
  suffices hh : Reach w f s' ∧ s'.got = s.got ∧ s'.ended = true from hh.2
  induction hs with
  | refl => exact ⟨h, rfl, he⟩
  | tail _ st ih =>
    obtain ⟨h1, h2, h3⟩ := ih
    refine ⟨.step h1 st, ?_⟩
    have hi := ((C72_serial h1).2.2 h3).2
    cases st <;> simp_all

/-- C72: once `Cancel` was called, at most the call already begun takes place. -/
theorem C72_cancelled {w f} {s s' : St} (hc : s.canceled = true) (hs : Steps w f s s') :
    s'.canceled = true ∧ s'.got.length + (if s'.r = .get then 1 else 0) ≤ s.got.length + (if s.r = .get then 1 else 0) := by
  induction hs with
  | refl => exact ⟨hc, Nat.le_refl _⟩
  | tail _ st ih =>
    obtain ⟨h1, h2⟩ := ih
    cases st <;> simp_all <;> omega

/-! ## Liveness without the race -/

structure Inv2 (s : St) : Prop where
  sw : s.status = .started ∨ s.r = .reset2 → sumBy cSw s.ns = 0
  st : s.canceled = false → s.status = .started ∨ s.status = .completed
  tok : s.canceled = false → s.ended = false → s.deleg + sumBy cK s.ns + s.queue + rTok s.r = 1
  arm : s.status = .started → s.r ≠ .setw → s.armed = true
  del : s.canceled = false → 0 < s.deleg → s.status = .completed → 0 < sumBy cSt s.ns + sumBy cHr s.ns + sumBy cSw s.ns
  k : s.canceled = false → 0 < sumBy cK s.ns → s.status = .completed

theorem inv2_init : Inv2 init := by
  constructor <;> simp [init, rTok]

theorem noswap {l : List NPc} (h : .swap ∉ l) : sumBy cSw l = 0 := by
  induction l with
  | nil => rfl
  | cons a t ih =>
    simp only [List.mem_cons, not_or] at h
    rw [sumBy_cons, ih h.2]
    cases a <;> simp_all [cSw]

theorem inv2_step {s s' : St} (I : Inv s) (J : Inv2 s) (st : Step false false s s') : Inv2 s' := by
  obtain ⟨h1, h2, h3, h4, h5, h6, h7, h8, h9, h10, h11, h12, h13⟩ := I
  obtain ⟨j1, j2, j3, j4, j5, j6⟩ := J
  cases st with
  | fire p q =>
    constructor <;> simp only [sumBy_append, sumBy_cons, sumBy_nil, cSt, cHr, cK, cSw] <;> grind [rComp]
  | fireLose p q => constructor <;> grind
  | store i p =>
    have a := sum_set cSt p .hr; have b := sum_set cHr p .hr; have c := sum_set cK p .hr; have d := sum_set cSw p .hr
    simp only [cSt, cHr, cK, cSw] at a b c d
    constructor <;> grind [rComp]
  | hr i p =>
    have a := sum_set cSt p .swap; have b := sum_set cHr p .swap; have c := sum_set cK p .swap; have d := sum_set cSw p .swap
    simp only [cSt, cHr, cK, cSw] at a b c d
    constructor <;> grind [rComp]
  | swap i p =>
    have a := sum_set cSt p (.inv s.deleg); have b := sum_set cHr p (.inv s.deleg); have c := sum_set cK p (.inv s.deleg)
    have d := sum_set cSw p (.inv s.deleg)
    simp only [cSt, cHr, cK, cSw] at a b c d
    constructor <;> grind [rComp]
  | invoke i k p =>
    have a := sum_set cSt p (.inv k); have b := sum_set cHr p (.inv k); have c := sum_set cK p (.inv k)
    have d := sum_set cSw p (.inv k)
    simp only [cSt, cHr, cK, cSw] at a b c d
    constructor <;> grind [rComp, post]
  | done i p =>
    have a := sum_set cSt p .over; have b := sum_set cHr p .over; have c := sum_set cK p .over; have d := sum_set cSw p .over
    simp only [cSt, cHr, cK, cSw] at a b c d
    constructor <;> grind [rComp]
  | pop p q => constructor <;> grind [rTok, rGot, rComp]
  | runCancel p q => constructor <;> grind [rTok, rGot, rComp]
  | runGo p q => constructor <;> grind [rTok, rGot, rComp]
  | get p q => constructor <;> grind [rTok, rGot, rComp]
  | cbFalse p => constructor <;> grind [rTok, rGot, rComp]
  | cbTrue p => constructor <;> grind [rTok, rGot, rComp]
  | reset1 p q =>
    have := noswap (q rfl)
    constructor <;> grind [rTok, rGot, rComp]
  | reset2 p => constructor <;> grind [rTok, rGot, rComp]
  | setw p q => constructor <;> grind [rTok, rGot, rComp]
  | setwCancel p q => constructor <;> grind [rTok, rGot, rComp]
  | setwFail ff p q => cases ff
  | inst p q => constructor <;> grind [rTok, rGot, rComp]
  | instDone p q => constructor <;> grind [rTok, rGot, rComp, post]
  | cancel q =>
    constructor <;> simp only [sumBy_append, sumBy_cons, sumBy_nil, cSt, cHr, cK, cSw] <;> grind [rComp]
  | cancelLose q => constructor <;> grind

theorem reach_inv2 {s : St} (h : Reach false false s) : Inv2 s := by
  induction h with
  | init => exact inv2_init
  | step hr st ih => exact inv2_step (reach_inv hr) ih st

theorem exists_of_pos {f : NPc → Nat} {l : List NPc} (h : 0 < sumBy f l) : ∃ p ∈ l, 0 < f p := by
  induction l with
  | nil => simp at h
  | cons a t ih =>
    by_cases ha : 0 < f a
    · exact ⟨a, by simp, ha⟩
    · rw [sumBy_cons] at h
      obtain ⟨p, hp, hp'⟩ := ih (by omega)
      exact ⟨p, by simp [hp], hp'⟩

/-- C72, partial (missing: the schedules of `C72_lost_fails` and failing registrations): until it is cancelled or its callback returns `false`, a
`Wait` is always armed with its handler linked, or on its way to its callback; and while the runner waits for the result, a thread is about to
supply it. -/
theorem C72_alive_partial {s : St} (h : Reach false false s) (hc : s.canceled = false) (he : s.ended = false) :
    ((s.status = .started ∧ s.armed = true ∧ s.deleg = 1) ∨ (∃ p ∈ s.ns, p ≠ .over) ∨ 0 < s.queue ∨ s.r ≠ .idle) ∧
    (s.r = .get → s.hrDone = true ∨ .store ∈ s.ns ∨ .hr ∈ s.ns) := by
  have I := reach_inv h
  have J := reach_inv2 h
  constructor
  · have t := J.tok hc he
    by_cases hr : s.r = .idle
    · by_cases hq : 0 < s.queue
      · exact .inr (.inr (.inl hq))
      by_cases hk : 0 < sumBy cK s.ns
      · obtain ⟨p, hp, hp'⟩ := exists_of_pos hk
        exact .inr (.inl ⟨p, hp, by intro e; simp [e, cK] at hp'⟩)
      have hd : s.deleg = 1 := by simp only [hr, rTok] at t; omega
      rcases J.st hc with hs | hs
      · exact .inl ⟨hs, J.arm hs (by simp [hr]), hd⟩
      · have := J.del hc (by omega) hs
        refine .inr (.inl ?_)
        by_cases h1 : 0 < sumBy cSt s.ns
        · obtain ⟨p, hp, hp'⟩ := exists_of_pos h1
          exact ⟨p, hp, by intro e; simp [e, cSt] at hp'⟩
        by_cases h2 : 0 < sumBy cHr s.ns
        · obtain ⟨p, hp, hp'⟩ := exists_of_pos h2
          exact ⟨p, hp, by intro e; simp [e, cHr] at hp'⟩
        · obtain ⟨p, hp, hp'⟩ := exists_of_pos (f := cSw) (by omega : 0 < sumBy cSw s.ns)
          exact ⟨p, hp, by intro e; simp [e, cSw] at hp'⟩
    · exact .inr (.inr (.inr hr))
  · intro hg
    cases hh : s.hrDone
    · have hs := I.comp (by simp [hg, rComp]; omega)
      have := I.cw hs hh (by simp [hg])
      right
      by_cases h1 : 0 < sumBy cSt s.ns
      · obtain ⟨p, hp, hp'⟩ := exists_of_pos h1
        left; cases p <;> simp [cSt] at hp'; exact hp
      · obtain ⟨p, hp, hp'⟩ := exists_of_pos (f := cHr) (by omega : 0 < sumBy cHr s.ns)
        right; cases p <;> simp [cHr] at hp'; exact hp
    · exact .inl rfl

/-! ## The race -/

/-- nobody has the handler any more -/
def Dead (s : St) : Prop := s.deleg = 0 ∧ s.queue = 0 ∧ s.r = .idle ∧ sumBy cK s.ns = 0

theorem dead_step {w f} {s s' : St} (d : Dead s) (st : Step w f s s') : Dead s' ∧ s'.got = s.got ∧ s'.canceled = (s.canceled || s'.canceled) := by
  obtain ⟨h1, h2, h3, h4⟩ := d
  cases st with
  | store i p =>
    have c := sum_set cK p .hr
    simp only [cK] at c
    refine ⟨⟨h1, h2, h3, ?_⟩, rfl, by simp⟩; simp only; omega
  | hr i p =>
    have c := sum_set cK p .swap
    simp only [cK] at c
    refine ⟨⟨h1, h2, h3, ?_⟩, rfl, by simp⟩; simp only; omega
  | swap i p =>
    have c := sum_set cK p (.inv s.deleg)
    simp only [cK] at c
    refine ⟨⟨rfl, h2, h3, ?_⟩, rfl, by simp⟩; simp only; omega
  | invoke i k p =>
    have c := sum_set cK p (.inv k)
    simp only [cK] at c
    omega
  | done i p =>
    have c := sum_set cK p .over
    simp only [cK] at c
    refine ⟨⟨h1, h2, h3, ?_⟩, rfl, by simp⟩; simp only; omega
  | _ => first
    | (simp_all [Dead, sumBy_append, cK]; done)
    | omega

theorem dead_steps {w f} {s s' : St} (d : Dead s) (hs : Steps w f s s') : Dead s' ∧ s'.got = s.got := by
  induction hs with
  | refl => exact ⟨d, rfl⟩
  | tail _ st ih =>
    have := dead_step ih.1 st
    exact ⟨this.1, this.2.1.trans ih.2⟩

/-- C72 fails: the callback of a `Wait` asked to be called again, nobody cancelled it, its wait is armed; yet it is never called again, however often
the handle is signalled. The thread that completed the second wait published `hr` before it took the handlers; the runner ran the callback and
set the wait up again in between; the thread then took the new handler, and called it while the status was `Started`, which drops it. -/
theorem C72_lost_fails : ∃ s, Reach true false s ∧ s.canceled = false ∧ s.ended = false ∧ s.status = .started ∧ s.armed = true ∧
    s.got = [1, 2] ∧ ∀ s' w f, Steps w f s s' → s'.got = [1, 2] := by
  have h0 : Reach true false init := .init
  have h1 := h0.step (.fire _ rfl rfl)
  have h2 := h1.step (.store _ 0 rfl)
  have h3 := h2.step (.hr _ 0 rfl)
  have h4 := h3.step (.swap _ 0 rfl)
  have h5 := h4.step (.invoke _ 0 0 rfl)
  have h6 := h5.step (.done _ 0 rfl)
  have h7 := h6.step (.pop _ rfl (by decide))
  have h8 := h7.step (.runGo _ rfl rfl)
  have h9 := h8.step (.get _ rfl rfl)
  have h10 := h9.step (.cbTrue _ rfl)
  have h11 := h10.step (.reset1 _ rfl (by simp))
  have h12 := h11.step (.reset2 _ rfl)
  have h13 := h12.step (.setw _ rfl (by decide))
  have h14 := h13.step (.fire _ rfl rfl)
  have h15 := h14.step (.store _ 1 rfl)
  have h16 := h15.step (.hr _ 1 rfl)
  have h17 := h16.step (.instDone _ rfl (by decide))
  have h18 := h17.step (.pop _ rfl (by decide))
  have h19 := h18.step (.runGo _ rfl rfl)
  have h20 := h19.step (.get _ rfl rfl)
  have h21 := h20.step (.cbTrue _ rfl)
  have h22 := h21.step (.reset1 _ rfl (by simp))
  have h23 := h22.step (.reset2 _ rfl)
  have h24 := h23.step (.setw _ rfl (by decide))
  have h25 := h24.step (.inst _ rfl rfl)
  have h26 := h25.step (.swap _ 1 rfl)
  have h27 := h26.step (.invoke _ 1 0 rfl)
  refine ⟨_, h27, rfl, rfl, rfl, rfl, rfl, fun s' w f hs => ?_⟩
  exact (dead_steps ⟨rfl, rfl, rfl, rfl⟩ hs).2

/-- C72 fails: when setting the wait up again fails, the operation ends with `Error`, which `OnCompleted` ignores: the callback is not called again, and
nobody hears of the failure. -/
theorem C72_error_fails : ∃ s, Reach false true s ∧ s.canceled = false ∧ s.ended = false ∧ s.status = .error ∧
    s.got = [1] ∧ ∀ s' w f, Steps w f s s' → s'.got = [1] := by
  have h0 : Reach false true init := .init
  have h1 := h0.step (.fire _ rfl rfl)
  have h2 := h1.step (.store _ 0 rfl)
  have h3 := h2.step (.hr _ 0 rfl)
  have h4 := h3.step (.swap _ 0 rfl)
  have h5 := h4.step (.invoke _ 0 0 rfl)
  have h6 := h5.step (.done _ 0 rfl)
  have h7 := h6.step (.pop _ rfl (by decide))
  have h8 := h7.step (.runGo _ rfl rfl)
  have h9 := h8.step (.get _ rfl rfl)
  have h10 := h9.step (.cbTrue _ rfl)
  have h11 := h10.step (.reset1 _ rfl (by intro _; decide))
  have h12 := h11.step (.reset2 _ rfl)
  have h13 := h12.step (.setwFail _ rfl rfl rfl)
  have h14 := h13.step (.instDone _ rfl (by decide))
  refine ⟨_, h14, rfl, rfl, rfl, rfl, fun s' w f hs => ?_⟩
  exact (dead_steps ⟨rfl, rfl, rfl, rfl⟩ hs).2

/-! ## Cases meeting the hypotheses -/

/-- two rounds without the race: the first notifier is through before the wait is set up again -/
theorem twice : Reach false false
    ⟨.completed, true, 2, 0, 0, false, [.over, .over], .cb, false, false, 2, [1, 2], 1⟩ := by
  have h0 : Reach false false init := .init
  have h1 := h0.step (.fire _ rfl rfl)
  have h2 := h1.step (.store _ 0 rfl)
  have h3 := h2.step (.hr _ 0 rfl)
  have h4 := h3.step (.swap _ 0 rfl)
  have h5 := h4.step (.invoke _ 0 0 rfl)
  have h6 := h5.step (.done _ 0 rfl)
  have h7 := h6.step (.pop _ rfl (by decide))
  have h8 := h7.step (.runGo _ rfl rfl)
  have h9 := h8.step (.get _ rfl rfl)
  have h10 := h9.step (.cbTrue _ rfl)
  have h11 := h10.step (.reset1 _ rfl (by intro _; decide))
  have h12 := h11.step (.reset2 _ rfl)
  have h13 := h12.step (.setw _ rfl (by decide))
  have h14 := h13.step (.inst _ rfl rfl)
  have h15 := h14.step (.fire _ rfl rfl)
  have h16 := h15.step (.store _ 1 rfl)
  have h17 := h16.step (.hr _ 1 rfl)
  have h18 := h17.step (.swap _ 1 rfl)
  have h19 := h18.step (.invoke _ 1 0 rfl)
  have h20 := h19.step (.done _ 1 rfl)
  have h21 := h20.step (.pop _ rfl (by decide))
  have h22 := h21.step (.runGo _ rfl rfl)
  exact h22.step (.get _ rfl rfl)

example : ∃ s, Reach false false s ∧ s.canceled = false ∧ s.ended = false ∧ s.got = [1, 2] := ⟨_, twice, rfl, rfl, rfl⟩

example : ∃ s, Reach false false s ∧ s.ended = true ∧ s.got = [1, 2] := ⟨_, twice.step (.cbFalse _ rfl), rfl, rfl⟩

example : ∃ s, Reach false false s ∧ s.canceled = true ∧ s.got = [1, 2] := ⟨_, twice.step (.cancelLose _ (by decide)), rfl, rfl⟩

end Verif.WaitTask
