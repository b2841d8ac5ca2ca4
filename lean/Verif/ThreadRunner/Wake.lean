import Verif.ThreadRunner.Count
set_option linter.unusedVariables false
namespace Verif.ThreadRunner
open Verif.Common

/-- positions between the last look at the counter and the wait, as far as no task is run in between -/
def zone : RPC → Bool
  | .chk => true
  | .dec => true
  | .timers => true
  | .cb .timer => true
  | .sub => true
  | .sleep => true
  | _ => false

/-- a poster that is going to wake the thread: `n` nested loops are suspended -/
def Waker (n : Nat) (p : PC) : Prop := p = .wake ∨ ∃ x, p = .added x ∧ x < 16 * (2 + (n + 1))

def Woken (s : St) : Prop := 0 < s.msgs ∨ ∃ (i : Nat) (p : PC), s.threads[i]? = some p ∧ Waker s.stack.length p

structure InvW (s : St) : Prop where
  early : sumBy isEarly s.threads = 0
  wk : s.cleaned = false → zone s.pc = true → s.pend = s.stack.length → s.proc = 0 → s.stack.length < s.word.cnt → Woken s

theorem invW_init {bg s} (h : Init bg s) : InvW s := by
  obtain ⟨n, rfl⟩ := h
  exact ⟨by simp [sumBy_replicate isEarly PC.idle rfl n], fun _ h => by cases h⟩

/-- thread `i` is no waker, or stays one -/
theorem woken_thread {s s' : St} {i : Nat} {p q : PC} (h : s.threads[i]? = some p) (hs : s'.threads = s.threads.set i q)
    (hst : s'.stack = s.stack) (hm : s.msgs ≤ s'.msgs) (hw : Waker s.stack.length p → Waker s.stack.length q ∨ 0 < s'.msgs) (hW : Woken s) : Woken s' := by
  have hi : i < s.threads.length := (List.getElem?_eq_some_iff.1 h).1
  rcases hW with h0 | ⟨j, pj, hj, hwj⟩
  · exact .inl (by omega)
  · by_cases hij : j = i
    · subst hij
      rw [h] at hj
      obtain rfl := Option.some.inj hj
      rcases hw hwj with h1 | h1
      · exact .inr ⟨j, q, by rw [hs, List.getElem?_set_self hi], by rw [hst]; exact h1⟩
      · exact .inl h1
    · exact .inr ⟨j, pj, by rw [hs, List.getElem?_set_ne (by omega)]; exact hj, by rw [hst]; exact hwj⟩

theorem invW_thread {s s' : St} (hI : InvW s) {i : Nat} {p q : PC} (h : s.threads[i]? = some p) (hs : s'.threads = s.threads.set i q)
    (hst : s'.stack = s.stack) (hpc : s'.pc = s.pc) (hpe : s'.pend = s.pend) (hpr : s'.proc = s.proc) (hcl : s'.cleaned = s.cleaned)
    (hc : s'.word.cnt = s.word.cnt) (he : isEarly q = 0)
    (hm : s.msgs ≤ s'.msgs) (hw : zone s.pc = true → Waker s.stack.length p → Waker s.stack.length q ∨ 0 < s'.msgs) : InvW s' := by
  have u := sums_of h q
  have u1 := u.early
  have u2 := u.le
  rw [← hs] at u1
  obtain ⟨c1, c2⟩ := hI
  refine ⟨by omega, fun h1 h2 h3 h4 h5 => ?_⟩
  rw [hcl] at h1; rw [hpc] at h2; rw [hpe, hst] at h3; rw [hpr] at h4; rw [hst, hc] at h5
  exact woken_thread h hs hst hm (hw h2) (c2 h1 h2 h3 h4 h5)

theorem invW_out {s s' : St} (hI : InvW s) (ht : s'.threads = s.threads) (hz : zone s'.pc = false) : InvW s' := by
  refine ⟨by rw [ht]; exact hI.early, fun _ h => by rw [hz] at h; cases h⟩

/-- within the zone -/
theorem invW_in {s : St} (hI : InvW s) (q : RPC) (hz : zone s.pc = true) : InvW { s with pc := q } :=
  ⟨hI.early, fun h1 _ h3 h4 h5 => hI.wk h1 hz h3 h4 h5⟩

theorem not_waker {n : Nat} {p : PC} (h1 : p ≠ .wake) (h2 : ∀ x, p ≠ .added x) : ¬ Waker n p := by
  rintro (h | ⟨x, h, _⟩)
  · exact h1 h
  · exact h2 x h

theorem zone_start (bg) : zone (afterStart bg) = false := by cases bg <;> rfl

theorem invW_step {bg E} (h1E : E.nestCb = false) (h2E : E.timerPump = false) (h3E : E.early = false) {s s' : St} (hA : InvA s)
    (hC : s.cleaned = false → InvC bg s) (hI : InvW s) (hs : Step bg E s s') : InvW s' := by
  have ⟨c1, c2⟩ := hI
  cases hs with
  | refuse => exact hI
  | post i t h hs => exact invW_thread hI h rfl rfl rfl rfl rfl rfl rfl rfl (Nat.le_refl _) (fun _ hw => absurd hw (not_waker nofun nofun))
  | lock i t h hl => exact invW_thread hI h rfl rfl rfl rfl rfl rfl rfl rfl (Nat.le_refl _) (fun _ hw => absurd hw (not_waker nofun nofun))
  | push i t h => exact invW_thread hI h rfl rfl rfl rfl rfl rfl rfl rfl (Nat.le_refl _) (fun _ hw => absurd hw (not_waker nofun nofun))
  | add i h hb =>
    have u := (sums_of h (.added s.word.add15.raw)).early
    refine ⟨by show sumBy isEarly (s.threads.set i (.added s.word.add15.raw)) = 0; rw [show isEarly PC.pushed = 0 from rfl] at u; rw [show isEarly (PC.added _) = 0 from rfl] at u; omega, ?_⟩
    intro h1 h2 h3 h4 h5
    have hi : i < s.threads.length := (List.getElem?_eq_some_iff.1 h).1
    have hl : s.word.lock = true := by
      have := (sums_of h .idle).lp
      have := hA.lock h1
      have e : isProd PC.pushed = 1 := rfl
      cases hl : s.word.lock with
      | true => rfl
      | false => rw [hl, show false.toNat = 0 from rfl] at this; omega
    have e := add15_locked hl hb
    by_cases hc : s.stack.length < s.word.cnt
    · exact woken_thread h rfl rfl (Nat.le_refl _) (fun hw => absurd hw (not_waker nofun nofun)) (c2 h1 h2 h3 h4 hc)
    · refine .inr ⟨i, _, List.getElem?_set_self hi, .inr ⟨_, rfl, ?_⟩⟩
      rw [raw_lt, e]
      dsimp only
      omega
  | readEarly i h he => rw [h3E] at he; cases he
  | addEarly i r h hb =>
    have := (sums_of h .idle).le
    have e : isEarly (.pushedR r) = 1 := rfl
    omega
  | compare i x h =>
    have e2 : isEarly (if x < 16 * (2 + s.r) then PC.wake else PC.idle) = 0 := by split <;> rfl
    refine invW_thread hI h rfl rfl rfl rfl rfl rfl rfl e2 (Nat.le_refl _) (fun hz hw => .inl ?_)
    have hr : s.r = s.stack.length + 1 := by
      have := hA.rr
      have : inLoop s.pc = 1 := by
        cases hp : s.pc <;> first | rfl | (rw [hp] at hz; cases hz)
      omega
    rcases hw with hw | ⟨y, hy, hlt⟩
    · cases hw
    · cases hy
      rw [hr, if_pos hlt]
      exact .inl rfl
  | wake i h => exact invW_thread hI h rfl rfl rfl rfl rfl rfl rfl rfl (Nat.le_succ _) (fun _ _ => .inr (Nat.succ_pos _))
  | wakeLost i h ho =>
    refine invW_thread hI h rfl rfl rfl rfl rfl rfl rfl rfl (Nat.le_refl _) (fun hz => ?_)
    rw [ho] at hz; cases hz
  | join i h =>
    have e2 : isEarly (if s.word.raw < 16 then PC.idle else PC.joining) = 0 := by split <;> rfl
    exact invW_thread hI h rfl rfl rfl rfl rfl rfl rfl e2 (Nat.le_refl _) (fun _ hw => absurd hw (not_waker nofun nofun))
  | joined i h hw => exact invW_thread hI h rfl rfl rfl rfl rfl rfl rfl rfl (Nat.le_refl _) (fun _ hw => absurd hw (not_waker nofun nofun))
  | interrupt => exact ⟨c1, c2⟩
  | disable => exact ⟨c1, c2⟩
  | enable => exact ⟨c1, c2⟩
  | unshare => exact ⟨c1, c2⟩
  | enter h => exact invW_out hI rfl (zone_start bg)
  | nestTask t h => exact invW_out hI rfl (zone_start bg)
  | nestCb k h he => rw [h1E] at he; cases he
  | peekChk h => exact invW_out hI rfl (by show zone (if _ then _ else _) = _; split <;> rfl)
  | peekWake h hm => exact invW_out hI rfl rfl
  | peekMsg h => exact invW_out hI rfl rfl
  | peekQuit h => exact invW_out hI rfl rfl
  | peekNone h hm => exact invW_out hI rfl rfl
  | load h =>
    refine ⟨c1, fun h1 _ h3 h4 h5 => ?_⟩
    have hi := (hC h1).hi
    have := hA.cb
    have := m_le
    dsimp only at h3 h4 h5
    rw [sub32_eq (by omega) (by omega)] at h3
    omega
  | chk h => exact invW_in hI _ (by rw [h]; rfl)
  | decIdle h hp => exact invW_in hI _ (by rw [h]; rfl)
  | decRun h hp => exact invW_in hI _ (by rw [h]; rfl)
  | timerCb h => exact invW_in hI _ (by rw [h]; rfl)
  | timerDone h => exact invW_in hI _ (by rw [h]; rfl)
  | sub h hp =>
    refine ⟨c1, fun h1 _ h3 _ h5 => ?_⟩
    dsimp only at h3 h5
    omega
  | sub0 h hp => exact invW_in hI _ (by rw [h]; rfl)
  | wokenMsg h => exact invW_in hI _ (by rw [h]; rfl)
  | wokenOther h => exact invW_in hI _ (by rw [h]; rfl)
  | wokenWait h => exact invW_in hI _ (by rw [h]; rfl)
  | drainChk h => exact invW_out hI rfl (by show zone (if _ then _ else _) = _; split <;> rfl)
  | drainWake h hm => exact invW_out hI rfl rfl
  | drainMsg h => exact invW_out hI rfl rfl
  | drainQuit h => exact invW_out hI rfl rfl
  | drainNone h hm => exact invW_out hI rfl rfl
  | popChk h => exact invW_out hI rfl (by show zone (if _ then _ else _) = _; split <;> rfl)
  | pop t q h hq => exact invW_out hI rfl rfl
  | popNone h hq =>
    refine ⟨c1, fun h1 _ _ _ _ => ?_⟩
    have hC := hC h1
    have hr := hC.ready (by rw [h]; rfl)
    have h2 := hC.count
    have h4 := hC.hi
    rw [hq, h] at h2
    have z : isRun RPC.pop = 0 := rfl
    simp only [List.length_nil] at h2
    omega
  | runEnd t h => exact ⟨c1, fun _ _ _ h4 _ => by cases h4⟩
  | cbEnd k h =>
    cases k with
    | msg => exact invW_out hI rfl rfl
    | drain => exact invW_out hI rfl rfl
    | wait => exact invW_out hI rfl (zone_start bg)
    | timer => exact invW_in hI _ (by rw [h]; rfl)
  | pumpTask t h hm => exact invW_out hI rfl (by show zone s.pc = false; rw [h]; rfl)
  | pumpCb k h he hm =>
    refine invW_out hI rfl ?_
    show zone s.pc = false
    rw [h]
    cases k with
    | timer => rw [he rfl] at h2E; cases h2E
    | _ => rfl
  | leave h hc =>
    refine ⟨c1, fun h1 h2 _ _ _ => ?_⟩
    have hC := hC h1
    dsimp only at h2
    match hst : s.stack with
    | [] => rw [hst] at h2; cases h2
    | .task t :: l => rw [hst] at h2; cases h2
    | .cb k :: l =>
      obtain ⟨t, ht⟩ := hC.tasks (.cb k) (by rw [hst]; exact List.mem_cons_self)
      cases ht
  | leaveClean h hc => exact invW_out hI rfl rfl
  | cleanPop t q h hq => exact invW_out hI rfl (by show zone s.pc = false; rw [h]; rfl)
  | cleanEnd h hq =>
    refine ⟨c1, fun h1 _ _ _ _ => ?_⟩
    dsimp only at h1
    rw [hA.clean h] at h1; cases h1

theorem reach_invW {bg E} (h1E : E.nestCb = false) (h2E : E.timerPump = false) (h3E : E.early = false) {s : St} (h : Reach bg E s) : InvW s := by
  induction h with
  | init s h => exact invW_init h
  | step s s' h hs ih => exact invW_step h1E h2E h3E (reach_invA h) (reach_invC h1E h) ih hs

end Verif.ThreadRunner
