import Verif.ThreadRunner.Lemmas
set_option linter.unusedVariables false
namespace Verif.ThreadRunner
open Verif.Common

def isPop : RPC → Bool
  | .pop => true
  | .popChk => true
  | _ => false
/-- positions behind the decision that there is nothing to run -/
def resting : RPC → Bool
  | .timers => true
  | .cb .timer => true
  | .sub => true
  | .sleep => true
  | _ => false
/-- positions behind the subtraction -/
def settled (bg : Bool) : RPC → Bool
  | .timers => !bg
  | .cb .timer => !bg
  | .sleep => true
  | _ => false

/-- invariant of a runner that was not cleaned up, when nested loops are started by queue tasks only -/
structure InvC (bg : Bool) (s : St) : Prop where
  tasks : ∀ f ∈ s.stack, ∃ t, f = .task t
  count : s.word.cnt + sumBy unc s.threads = s.proc + (s.stack.length + isRun s.pc) + s.queue.length
  lo : s.stack.length + isRun s.pc ≤ s.pend
  hi : s.proc + s.pend ≤ s.word.cnt
  null : s.nullPop = false
  ready : isPop s.pc = true → s.stack.length < s.pend
  idle : resting s.pc = true → s.pend = s.stack.length
  slp : settled bg s.pc = true → s.proc = 0

theorem invC_init {bg s} (h : Init bg s) : InvC bg s := by
  obtain ⟨n, rfl⟩ := h
  exact ⟨nofun, by simp [sumBy_replicate unc PC.idle rfl n, isRun], by simp [isRun], by simp, rfl, nofun, nofun, nofun⟩

/-- a step of another thread -/
theorem invC_thread {bg} {s s' : St} (hI : InvC bg s) {i : Nat} {p q : PC} (h : s.threads[i]? = some p) (hs : s'.threads = s.threads.set i q)
    (h1 : s'.stack = s.stack) (h2 : s'.pc = s.pc) (h3 : s'.pend = s.pend) (h4 : s'.proc = s.proc) (h5 : s'.nullPop = s.nullPop)
    (hc : s'.word.cnt + unc q + s.queue.length = s.word.cnt + unc p + s'.queue.length) (hu : s.word.cnt ≤ s'.word.cnt) : InvC bg s' := by
  have u := (sums_of h q).unc
  rw [← hs] at u
  obtain ⟨c1, c2, c3, c4, c5, c6, c7, c8⟩ := hI
  exact ⟨by rw [h1]; exact c1, by rw [h1, h2, h4]; omega, by rw [h1, h2, h3]; exact c3, by rw [h3, h4]; omega, by rw [h5]; exact c5,
    by rw [h1, h2, h3]; exact c6, by rw [h1, h2, h3]; exact c7, by rw [h2, h4]; exact c8⟩

theorem invC_go {bg} {s : St} (hI : InvC bg s) (q : RPC) (hq : isRun q = isRun s.pc)
    (h1 : isPop q = true → s.stack.length < s.pend) (h2 : resting q = true → s.pend = s.stack.length) (h3 : settled bg q = true → s.proc = 0) : InvC bg { s with pc := q } := by
  obtain ⟨c1, c2, c3, c4, c5, c6, c7, c8⟩ := hI
  refine ⟨c1, ?_, ?_, c4, c5, h1, h2, h3⟩
  · show s.word.cnt + _ = s.proc + (s.stack.length + isRun q) + _
    rw [hq]; exact c2
  · show s.stack.length + isRun q ≤ _
    rw [hq]; exact c3

/-- a position from which nothing is claimed yet -/
def plain (p : RPC) : Prop := isRun p = 0 ∧ isPop p = false ∧ resting p = false

theorem plain_settled {p : RPC} (h : plain p) (bg) : settled bg p = false := by
  obtain ⟨h1, h2, h3⟩ := h
  cases p with
  | timers => cases h3
  | sleep => cases h3
  | cb k => cases k <;> first | rfl | cases h3
  | _ => rfl

theorem invC_plain {bg} {s : St} (hI : InvC bg s) (q : RPC) (hp : isRun s.pc = 0) (hq : plain q) : InvC bg { s with pc := q } :=
  invC_go hI q (by rw [hp, hq.1]) (fun h => by rw [hq.2.1] at h; cases h) (fun h => by rw [hq.2.2] at h; cases h)
    (fun h => by rw [plain_settled hq] at h; cases h)

theorem plain_start (bg) : plain (afterStart bg) := by cases bg <;> exact ⟨rfl, rfl, rfl⟩
theorem plain_load (bg) : plain (afterLoad bg) := by cases bg <;> exact ⟨rfl, rfl, rfl⟩
theorem plain_run (bg) : plain (afterRun bg) := by cases bg <;> exact ⟨rfl, rfl, rfl⟩

theorem invC_step {bg E} (hE : E.nestCb = false) {s s' : St} (hA : InvA s) (hI : s.cleaned = false → InvC bg s) (hs : Step bg E s s') :
    s'.cleaned = false → InvC bg s' := by
  intro hcl
  have hcl0 : s.cleaned = false := by
    cases hs <;> first | exact hcl | cases hcl
  replace hI := hI hcl0
  have ⟨c1, c2, c3, c4, c5, c6, c7, c8⟩ := hI
  have a1 := hA.rr
  have a5 := hA.cb
  have lockd : ∀ {i : Nat} {p : PC}, s.threads[i]? = some p → isProd p = 1 → s.word.lock = true := by
    intro i p h hp
    have := (sums_of h .idle).lp
    have := hA.lock hcl0
    cases hl : s.word.lock with
    | true => rfl
    | false => rw [hl, show false.toNat = 0 from rfl] at this; omega
  have r1 : inLoop s.pc = 1 → sub32 s.r 1 = s.stack.length := by
    intro h
    have := m_le
    rw [sub32_eq (by omega) (by omega)]; omega
  have pl : ∀ {p : RPC}, s.pc = p → isRun p = 0 → isRun s.pc = 0 := fun h h' => by rw [h]; exact h'
  cases hs with
  | refuse => exact hI
  | post i t h hs => exact invC_thread hI h rfl rfl rfl rfl rfl rfl rfl (Nat.le_refl _)
  | lock i t h hl => exact invC_thread hI h rfl rfl rfl rfl rfl rfl rfl (Nat.le_refl _)
  | push i t h =>
    refine invC_thread hI h rfl rfl rfl rfl rfl rfl ?_ (Nat.le_refl _)
    show s.word.cnt + 1 + s.queue.length = s.word.cnt + 0 + (s.queue ++ [t]).length
    simp; omega
  | add i h hb =>
    have e := add15_locked (lockd h rfl) hb
    refine invC_thread hI h rfl rfl rfl rfl rfl rfl ?_ ?_
    · show s.word.add15.cnt + 0 + _ = s.word.cnt + 1 + _; rw [e]
    · show _ ≤ s.word.add15.cnt; rw [e]; exact Nat.le_succ _
  | readEarly i h he => exact invC_thread hI h rfl rfl rfl rfl rfl rfl rfl (Nat.le_refl _)
  | addEarly i r h hb =>
    have e := add15_locked (lockd h rfl) hb
    have e2 : unc (if s.word.add15.raw < 16 * (2 + r) then PC.wake else PC.idle) = 0 := by split <;> rfl
    refine invC_thread hI h rfl rfl rfl rfl rfl rfl ?_ ?_
    · rw [e2]; show s.word.add15.cnt + 0 + _ = s.word.cnt + 1 + _; rw [e]
    · show _ ≤ s.word.add15.cnt; rw [e]; exact Nat.le_succ _
  | compare i x h =>
    have e2 : unc (if x < 16 * (2 + s.r) then PC.wake else PC.idle) = 0 := by split <;> rfl
    exact invC_thread hI h rfl rfl rfl rfl rfl rfl (by rw [e2]; rfl) (Nat.le_refl _)
  | wake i h => exact invC_thread hI h rfl rfl rfl rfl rfl rfl rfl (Nat.le_refl _)
  | wakeLost i h ho => exact invC_thread hI h rfl rfl rfl rfl rfl rfl rfl (Nat.le_refl _)
  | join i h =>
    have e2 : unc (if s.word.raw < 16 then PC.idle else PC.joining) = 0 := by split <;> rfl
    exact invC_thread hI h rfl rfl rfl rfl rfl rfl (by rw [e2]; rfl) (Nat.le_refl _)
  | joined i h hw => exact invC_thread hI h rfl rfl rfl rfl rfl rfl rfl (Nat.le_refl _)
  | interrupt => exact ⟨c1, c2, c3, c4, c5, c6, c7, c8⟩
  | disable => exact ⟨c1, c2, c3, c4, c5, c6, c7, c8⟩
  | enable => exact ⟨c1, c2, c3, c4, c5, c6, c7, c8⟩
  | unshare => exact ⟨c1, c2, c3, c4, c5, c6, c7, c8⟩
  | enter h =>
    have := invC_plain hI _ (pl h rfl) (plain_start bg)
    exact ⟨this.1, this.2, this.3, this.4, this.5, this.6, this.7, this.8⟩
  | nestTask t h =>
    rw [h] at c2 c3
    have hp := plain_start bg
    refine ⟨?_, ?_, ?_, c4, c5, fun h => ?_, fun h => ?_, fun h => ?_⟩
    · intro f hf
      rcases List.mem_cons.1 hf with rfl | hf
      · exact ⟨t, rfl⟩
      · exact c1 f hf
    · show s.word.cnt + sumBy unc s.threads = s.proc + (s.stack.length + 1 + isRun (afterStart bg)) + s.queue.length
      rw [hp.1]; exact c2
    · show s.stack.length + 1 + isRun (afterStart bg) ≤ s.pend
      rw [hp.1]; exact c3
    · dsimp only at h; rw [hp.2.1] at h; cases h
    · dsimp only at h; rw [hp.2.2] at h; cases h
    · dsimp only at h; rw [plain_settled hp] at h; cases h
  | nestCb k h he => rw [hE] at he; cases he
  | peekChk h => exact invC_plain hI _ (pl h rfl) (by split <;> exact ⟨rfl, rfl, rfl⟩)
  | peekWake h hm =>
    have := invC_plain hI .peekChk (pl h rfl) ⟨rfl, rfl, rfl⟩
    exact ⟨this.1, this.2, this.3, this.4, this.5, this.6, this.7, this.8⟩
  | peekMsg h => exact invC_plain hI _ (pl h rfl) ⟨rfl, rfl, rfl⟩
  | peekQuit h => exact invC_plain hI _ (pl h rfl) ⟨rfl, rfl, rfl⟩
  | peekNone h hm => exact invC_plain hI _ (pl h rfl) ⟨rfl, rfl, rfl⟩
  | load h =>
    have hp := plain_load bg
    have := m_le
    have e := sub32_eq (a := s.word.cnt) (b := s.proc) (by omega) (by omega)
    rw [h] at c2 c3
    have z : isRun RPC.load = 0 := rfl
    refine ⟨c1, ?_, ?_, ?_, c5, fun h => ?_, fun h => ?_, fun h => ?_⟩
    · show s.word.cnt + sumBy unc s.threads = s.proc + (s.stack.length + isRun (afterLoad bg)) + s.queue.length
      rw [hp.1]; exact c2
    · show s.stack.length + isRun (afterLoad bg) ≤ sub32 s.word.cnt s.proc
      rw [hp.1, e]; omega
    · show s.proc + sub32 s.word.cnt s.proc ≤ s.word.cnt
      rw [e]; omega
    · dsimp only at h; rw [hp.2.1] at h; cases h
    · dsimp only at h; rw [hp.2.2] at h; cases h
    · dsimp only at h; rw [plain_settled hp] at h; cases h
  | chk h => exact invC_plain hI _ (pl h rfl) (by split <;> exact ⟨rfl, rfl, rfl⟩)
  | decIdle h hp =>
    rw [r1 (by rw [h]; rfl)] at hp
    exact invC_go hI _ (by rw [h]; cases bg <;> rfl) (by cases bg <;> nofun) (fun _ => hp) (by cases bg <;> nofun)
  | decRun h hp =>
    rw [r1 (by rw [h]; rfl)] at hp
    exact invC_go hI _ (by rw [h]; cases bg <;> rfl) (fun _ => by omega) (by cases bg <;> nofun) (by cases bg <;> nofun)
  | timerCb h => exact invC_go hI _ (by rw [h]; rfl) nofun (fun _ => c7 (by rw [h]; rfl)) (fun h' => c8 (by rw [h]; exact h'))
  | timerDone h =>
    refine invC_go hI _ (by rw [h]; cases bg <;> rfl) (by cases bg <;> nofun) (fun _ => c7 (by rw [h]; rfl)) (fun h' => c8 ?_)
    rw [h]; cases bg
    · rfl
    · cases h'
  | sub h hp =>
    have e := sub_cnt (w := s.word) (n := s.proc) (by omega) a5
    have e2 : isRun (afterSub bg (s.word.sub s.proc).cnt s.r) = 0 := by unfold afterSub; split <;> cases bg <;> rfl
    have hl : s.stack.length ≤ s.word.cnt - s.proc := by omega
    rw [h] at c2 c3
    have z : isRun RPC.sub = 0 := rfl
    have z1 : inLoop s.pc = 1 := by rw [h]; rfl
    refine ⟨c1, ?_, ?_, ?_, c5, fun h => ?_, fun h => ?_, fun h => rfl⟩
    · show (s.word.sub s.proc).cnt + sumBy unc s.threads = 0 + (s.stack.length + isRun (afterSub bg (s.word.sub s.proc).cnt s.r)) + s.queue.length
      rw [e2, e]; omega
    · show s.stack.length + isRun (afterSub bg (s.word.sub s.proc).cnt s.r) ≤ (s.word.sub s.proc).cnt
      rw [e2, e]; omega
    · show 0 + (s.word.sub s.proc).cnt ≤ (s.word.sub s.proc).cnt
      omega
    · dsimp only at h
      unfold afterSub at h
      split at h <;> cases bg <;> cases h
    · dsimp only at h ⊢
      rw [e] at h ⊢
      unfold afterSub at h
      split at h
      · cases bg <;> cases h
      · omega
  | sub0 h hp => exact invC_go hI _ (by rw [h]; cases bg <;> rfl) (by cases bg <;> nofun) (fun _ => c7 (by rw [h]; rfl)) (fun _ => hp)
  | wokenMsg h => exact invC_plain hI _ (pl h rfl) (by split <;> exact ⟨rfl, rfl, rfl⟩)
  | wokenOther h => exact invC_plain hI _ (pl h rfl) (plain_start bg)
  | wokenWait h => exact invC_plain hI _ (pl h rfl) ⟨rfl, rfl, rfl⟩
  | drainChk h => exact invC_plain hI _ (pl h rfl) (by split <;> exact ⟨rfl, rfl, rfl⟩)
  | drainWake h hm =>
    have := invC_plain hI .drainChk (pl h rfl) ⟨rfl, rfl, rfl⟩
    exact ⟨this.1, this.2, this.3, this.4, this.5, this.6, this.7, this.8⟩
  | drainMsg h => exact invC_plain hI _ (pl h rfl) ⟨rfl, rfl, rfl⟩
  | drainQuit h => exact invC_plain hI _ (pl h rfl) ⟨rfl, rfl, rfl⟩
  | drainNone h hm => exact invC_plain hI _ (pl h rfl) ⟨rfl, rfl, rfl⟩
  | popChk h =>
    refine invC_go hI _ (by rw [h]; split <;> rfl) (fun _ => c6 (by rw [h]; rfl)) ?_ ?_
    · split <;> nofun
    · split <;> nofun
  | pop t q h hq =>
    have hr := c6 (by rw [h]; rfl)
    rw [h] at c2 c3
    have z : isRun RPC.pop = 0 := rfl
    refine ⟨c1, ?_, ?_, c4, c5, nofun, nofun, nofun⟩
    · show s.word.cnt + sumBy unc s.threads = s.proc + (s.stack.length + 1) + q.length
      rw [hq] at c2
      simp only [List.length_cons] at c2
      omega
    · show s.stack.length + 1 ≤ s.pend
      omega
  | popNone h hq =>
    have hr := c6 (by rw [h]; rfl)
    rw [h] at c2 c3
    have z : isRun RPC.pop = 0 := rfl
    rw [hq] at c2
    simp only [List.length_nil] at c2
    omega
  | runEnd t h =>
    have hp := plain_run bg
    rw [h] at c2 c3
    have z : isRun (RPC.run t) = 1 := rfl
    have := m_le
    have e := sub32_eq (a := s.pend) (b := 1) (by omega) (by omega)
    refine ⟨c1, ?_, ?_, ?_, c5, fun h => ?_, fun h => ?_, fun h => ?_⟩
    · show s.word.cnt + sumBy unc s.threads = s.proc + 1 + (s.stack.length + isRun (afterRun bg)) + s.queue.length
      rw [hp.1]; omega
    · show s.stack.length + isRun (afterRun bg) ≤ sub32 s.pend 1
      rw [hp.1, e]; omega
    · show s.proc + 1 + sub32 s.pend 1 ≤ s.word.cnt
      rw [e]; omega
    · dsimp only at h; rw [hp.2.1] at h; cases h
    · dsimp only at h; rw [hp.2.2] at h; cases h
    · dsimp only at h; rw [plain_settled hp] at h; cases h
  | cbEnd k h =>
    have h0 : isRun s.pc = 0 := pl h rfl
    cases k with
    | msg => exact invC_plain hI _ h0 ⟨rfl, rfl, rfl⟩
    | drain => exact invC_plain hI _ h0 ⟨rfl, rfl, rfl⟩
    | wait => exact invC_plain hI _ h0 (plain_start bg)
    | timer => exact invC_go hI _ (by rw [h]; rfl) nofun (fun _ => c7 (by rw [h]; rfl)) (fun h' => c8 (by rw [h]; exact h'))
  | pumpTask t h hm => exact ⟨c1, c2, c3, c4, c5, c6, c7, c8⟩
  | pumpCb k h he hm => exact ⟨c1, c2, c3, c4, c5, c6, c7, c8⟩
  | leave h hc =>
    rw [h] at c2 c3
    have z : isRun RPC.ret = 0 := rfl
    have key : s.stack.length = s.stack.tail.length + isRun (resume s.stack) := by
      match hst : s.stack with
      | [] => rfl
      | .task t :: l => rfl
      | .cb k :: l =>
        obtain ⟨t, ht⟩ := c1 (.cb k) (by rw [hst]; exact List.mem_cons_self)
        cases ht
    have k2 : isPop (resume s.stack) = false ∧ resting (resume s.stack) = false ∧ settled bg (resume s.stack) = false := by
      match hst : s.stack with
      | [] => exact ⟨rfl, rfl, rfl⟩
      | .task t :: l => exact ⟨rfl, rfl, rfl⟩
      | .cb k :: l =>
        obtain ⟨t, ht⟩ := c1 (.cb k) (by rw [hst]; exact List.mem_cons_self)
        cases ht
    refine ⟨fun f hf => c1 f (List.mem_of_mem_tail hf), ?_, ?_, c4, c5, fun h => ?_, fun h => ?_, fun h => ?_⟩
    · show s.word.cnt + sumBy unc s.threads = s.proc + (s.stack.tail.length + isRun (resume s.stack)) + s.queue.length
      omega
    · show s.stack.tail.length + isRun (resume s.stack) ≤ s.pend
      omega
    · dsimp only at h; rw [k2.1] at h; cases h
    · dsimp only at h; rw [k2.2.1] at h; cases h
    · dsimp only at h; rw [k2.2.2] at h; cases h
  | leaveClean h hc => cases hcl
  | cleanPop t q h hq => rw [hA.clean h] at hcl0; cases hcl0
  | cleanEnd h hq => rw [hA.clean h] at hcl0; cases hcl0

theorem reach_invC {bg E} (hE : E.nestCb = false) {s : St} (h : Reach bg E s) : s.cleaned = false → InvC bg s := by
  induction h with
  | init s h => exact fun _ => invC_init h
  | step s s' h hs ih => exact invC_step hE (reach_invA h) ih hs

end Verif.ThreadRunner
