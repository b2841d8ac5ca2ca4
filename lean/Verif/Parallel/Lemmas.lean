import Verif.Parallel.Model
set_option linter.unusedVariables false
namespace Verif.Parallel
open Verif.Common

/-- threads (or promises of one) counted in `uParallelCurrent` -/
def act : PC → Nat
  | .pushing _ b => b.toNat
  | .unlocking b => b.toNat
  | .schedule => 1
  | .failDec => 1
  | .exCheck => 1
  | .exIntr => 1
  | .exPopLock => 1
  | .exPop => 1
  | .exUnpop _ => 1
  | .exTask _ => 1
  | .exRunning _ => 1
  | .exSub => 1
  | .exBreak => 1
  | _ => 0
def cons : PC → Nat
  | .exPop => 1
  | .exUnpop _ => 1
  | .cleanup => 1
  | _ => 0
def isProd : PC → Nat
  | .pushing _ _ => 1
  | .unlocking _ => 1
  | _ => 0
def isPushing : PC → Nat
  | .pushing _ _ => 1
  | _ => 0
def inHand : PC → Nat
  | .exUnpop (some _) => 1
  | .exTask _ => 1
  | .exRunning _ => 1
  | .exSub => 1
  | _ => 0
/-- positions that a calm runner which is neither stopped nor released does not reach -/
def bad : PC → Nat
  | .failDec => 1
  | .exUnpop none => 1
  | .exBreak => 1
  | .cleanLock => 1
  | .cleanup => 1
  | _ => 0

/-- effect of thread `i` going from `p` to `q` -/
structure Sums (l l' : List PC) (p q : PC) : Prop where
  act : sumBy act l' + act p = sumBy act l + act q
  cons : sumBy cons l' + cons p = sumBy cons l + cons q
  prod : sumBy isProd l' + isProd p = sumBy isProd l + isProd q
  pushing : sumBy isPushing l' + isPushing p = sumBy isPushing l + isPushing q
  hand : sumBy inHand l' + inHand p = sumBy inHand l + inHand q
  bad : sumBy bad l' + bad p = sumBy bad l + bad q
  la : Parallel.act p ≤ sumBy Parallel.act l
  lc : Parallel.cons p ≤ sumBy Parallel.cons l
  lp : isProd p ≤ sumBy isProd l
  lpp : isPushing p ≤ sumBy isPushing l
  lh : inHand p ≤ sumBy inHand l
  lb : Parallel.bad p ≤ sumBy Parallel.bad l

theorem sums_of {l : List PC} {i : Nat} {p : PC} (h : l[i]? = some p) (q : PC) : Sums l (l.set i q) p q :=
  ⟨sumBy_set _ _ _ _ _ h, sumBy_set _ _ _ _ _ h, sumBy_set _ _ _ _ _ h, sumBy_set _ _ _ _ _ h, sumBy_set _ _ _ _ _ h, sumBy_set _ _ _ _ _ h,
   le_sumBy _ _ _ _ h, le_sumBy _ _ _ _ h, le_sumBy _ _ _ _ h, le_sumBy _ _ _ _ h, le_sumBy _ _ _ _ h, le_sumBy _ _ _ _ h⟩

theorem sumBy_replicate {α} (f : α → Nat) (x : α) (hx : f x = 0) (n : Nat) : sumBy f (List.replicate n x) = 0 := by
  induction n with
  | zero => rfl
  | succ n ih => simp [List.replicate_succ, ih, hx]

/-- invariant of all schedules -/
structure Inv (mx : Nat) (s : St) : Prop where
  par : s.word.par = s.pool + sumBy act s.threads
  le : s.word.par ≤ mx
  pop : sumBy cons s.threads = s.word.pop.toNat
  prod : s.cleaned = false → sumBy isProd s.threads = s.word.lock.toNat
  clst : s.cleaned = true → s.word.stop = true
  ist : s.word.intr = true → s.word.stop = true

theorem inv_init {mx s} (h : Init s) : Inv mx s := by
  obtain ⟨n, rfl⟩ := h
  have e := fun f h => sumBy_replicate (α := PC) f .idle h n
  exact ⟨by simp [e act rfl], Nat.zero_le _, by simp [e cons rfl], by simp [e isProd rfl], by simp, by simp⟩

theorem inv_move {mx} {s s' : St} (hI : Inv mx s) {i : Nat} {p q : PC} (h : s.threads[i]? = some p) (hs : s'.threads = s.threads.set i q)
    (hp : s'.word.par + s.pool + act p = s.word.par + s'.pool + act q) (hm : s'.word.par ≤ mx)
    (hpop : s'.word.pop.toNat + cons p = s.word.pop.toNat + cons q)
    (hl : s'.cleaned = false → s.cleaned = false ∧ s'.word.lock.toNat + isProd p = s.word.lock.toNat + isProd q)
    (hc : s'.cleaned = true → s'.word.stop = true) (hi : s'.word.intr = true → s'.word.stop = true) : Inv mx s' := by
  obtain ⟨u1, u2, u3, u4, u5, u6, -⟩ := sums_of h q
  rw [← hs] at u1 u2 u3
  obtain ⟨c1, c2, c3, c4, c5, c6⟩ := hI
  refine ⟨by omega, hm, by omega, fun h0 => ?_, hc, hi⟩
  have := hl h0
  have := c4 this.1
  omega

theorem inv_step {mx calm} {s s' : St} (hI : Inv mx s) (hs : Step mx calm s s') : Inv mx s' := by
  have ⟨c1, c2, c3, c4, c5, c6⟩ := hI
  cases hs with
  | refuse i t h hs => exact hI
  | post i t h hs => exact inv_move hI h rfl rfl c2 rfl (fun h => ⟨h, rfl⟩) c5 c6
  | cas i t h hl hb =>
    refine inv_move hI h rfl ?_ ?_ rfl (fun h => ⟨h, ?_⟩) c5 c6
    · show s.word.par + (raises mx s.word).toNat + s.pool + 0 = s.word.par + s.pool + (raises mx s.word).toNat; omega
    · show s.word.par + (raises mx s.word).toNat ≤ mx
      cases hr : raises mx s.word with
      | false => exact c2
      | true =>
        unfold raises at hr
        simp at hr
        simp; omega
    · show 1 + 0 = s.word.lock.toNat + 1
      rw [hl]; rfl
  | push i t b h => exact inv_move hI h rfl rfl c2 rfl (fun h => ⟨h, rfl⟩) c5 c6
  | unlock i b h =>
    refine inv_move (q := if b then .schedule else .idle) hI h rfl (by cases b <;> rfl) c2 (by cases b <;> rfl) (fun h' => ⟨h', ?_⟩) c5 c6
    have h1 := c4 h'
    have h2 := le_sumBy isProd _ _ _ h
    have h3 : s.word.lock.toNat ≤ 1 := Bool.toNat_le _
    simp only [isProd] at h2
    have : isProd (if b then PC.schedule else .idle) = 0 := by cases b <;> rfl
    rw [this]
    show 0 + 1 = s.word.lock.toNat + 0
    omega
  | schedule i h => exact inv_move hI h rfl (show s.word.par + s.pool + 1 = s.word.par + (s.pool + 1) + 0 by omega) c2 rfl (fun h => ⟨h, rfl⟩) c5 c6
  | scheduleFail i h => exact inv_move hI h rfl rfl c2 rfl (fun h => ⟨h, rfl⟩) (fun _ => rfl) (fun _ => rfl)
  | failDec i h =>
    have l := le_sumBy act _ _ _ h
    simp only [act] at l
    exact inv_move hI h rfl (show s.word.par - 1 + s.pool + 1 = s.word.par + s.pool + 0 by omega) (show s.word.par - 1 ≤ mx by omega) rfl (fun h => ⟨h, rfl⟩) c5 c6
  | join => exact ⟨c1, c2, c3, c4, fun _ => rfl, fun _ => rfl⟩
  | interrupt => exact ⟨c1, c2, c3, c4, fun _ => rfl, fun _ => rfl⟩
  | unshare => exact ⟨c1, c2, c3, c4, c5, c6⟩
  | exStart i h hp => exact inv_move hI h rfl (show s.word.par + s.pool + 0 = s.word.par + (s.pool - 1) + 1 by omega) c2 rfl (fun h => ⟨h, rfl⟩) c5 c6
  | exCheck i h => exact inv_move (q := if s.shared then .exIntr else .exBreak) hI h rfl (by cases s.shared <;> rfl) c2 (by cases s.shared <;> rfl) (fun h => ⟨h, by cases s.shared <;> rfl⟩) c5 c6
  | exIntr i h => exact inv_move (q := if s.word.intr then .exBreak else .exPopLock) hI h rfl (by cases s.word.intr <;> rfl) c2 (by cases s.word.intr <;> rfl) (fun h => ⟨h, by cases s.word.intr <;> rfl⟩) c5 c6
  | exPopLock i h hp => exact inv_move hI h rfl rfl c2 (show 1 + 0 = s.word.pop.toNat + 1 by rw [hp]; rfl) (fun h => ⟨h, rfl⟩) c5 c6
  | exPop i t q h hq hc => exact inv_move hI h rfl rfl c2 rfl (fun h => ⟨h, rfl⟩) c5 c6
  | exPopNone i h hq hc => exact inv_move hI h rfl rfl c2 rfl (fun h => ⟨h, rfl⟩) c5 c6
  | exUnpop i t h =>
    have l := le_sumBy cons _ _ _ h
    simp only [cons] at l
    have := Bool.toNat_le s.word.pop
    exact inv_move hI h rfl rfl c2 (show 0 + 1 = s.word.pop.toNat + 0 by omega) (fun h => ⟨h, rfl⟩) c5 c6
  | exUnpopNone i h =>
    have l := le_sumBy cons _ _ _ h
    simp only [cons] at l
    have := Bool.toNat_le s.word.pop
    exact inv_move hI h rfl rfl c2 (show 0 + 1 = s.word.pop.toNat + 0 by omega) (fun h => ⟨h, rfl⟩) c5 c6
  | exStartTask i t h => exact inv_move hI h rfl rfl c2 rfl (fun h => ⟨h, rfl⟩) c5 c6
  | exEndTask i t h => exact inv_move hI h rfl rfl c2 rfl (fun h => ⟨h, rfl⟩) c5 c6
  | exSub i h =>
    have l := le_sumBy act _ _ _ h
    simp only [act] at l
    have hb := Bool.toNat_le (leaves s.word)
    refine inv_move (q := if leaves s.word then .exExit else .exCheck) hI h rfl ?_ (show s.word.par - (leaves s.word).toNat ≤ mx by omega) ?_ (fun h => ⟨h, ?_⟩) c5 c6
    · show s.word.par - (leaves s.word).toNat + s.pool + 1 = s.word.par + s.pool + _
      cases leaves s.word
      · rfl
      · show s.word.par - 1 + s.pool + 1 = s.word.par + s.pool + 0; omega
    · show s.word.pop.toNat + 0 = _
      cases leaves s.word <;> rfl
    · show s.word.lock.toNat + 0 = _
      cases leaves s.word <;> rfl
  | exBreak i h =>
    have l := le_sumBy act _ _ _ h
    simp only [act] at l
    exact inv_move hI h rfl (show s.word.par - 1 + s.pool + 1 = s.word.par + s.pool + 0 by omega) (show s.word.par - 1 ≤ mx by omega) rfl (fun h => ⟨h, rfl⟩) c5 c6
  | exLeave i h => exact inv_move hI h rfl rfl c2 rfl (fun h => ⟨h, rfl⟩) c5 c6
  | exCleanup i h hc => exact inv_move hI h rfl rfl c2 rfl (fun h => ⟨h, rfl⟩) c5 c6
  | cleanBusy i h hp => exact inv_move hI h rfl rfl c2 rfl (fun h => ⟨h, rfl⟩) c5 c6
  | cleanLock i h hp => exact inv_move hI h rfl rfl c2 (show 1 + 0 = s.word.pop.toNat + 1 by rw [hp]; rfl) (fun h => ⟨h, rfl⟩) c5 c6
  | cleanPop i t q h hq => exact ⟨c1, c2, c3, c4, c5, c6⟩
  | cleanEnd i h hq =>
    have l := le_sumBy cons _ _ _ h
    simp only [cons] at l
    have := Bool.toNat_le s.word.pop
    exact inv_move hI h rfl rfl c2 (show 0 + 1 = s.word.pop.toNat + 0 by omega) (fun h => by cases h) (fun _ => rfl) (fun _ => rfl)

theorem inv_reach {mx calm s} (h : Reach mx calm s) : Inv mx s := by
  induction h with
  | init s h => exact inv_init h
  | step s s' _ hs ih => exact inv_step ih hs

end Verif.Parallel
