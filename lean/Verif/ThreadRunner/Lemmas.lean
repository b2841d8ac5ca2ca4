import Verif.ThreadRunner.Model
set_option linter.unusedVariables false
namespace Verif.ThreadRunner
open Verif.Common

/-! ### arithmetic of the word -/

theorem m_le : m28 < m32 := by unfold m28 m32; decide

theorem sub32_eq {a b : Nat} (h : b ≤ a) (ha : a < m32) : sub32 a b = a - b := by
  unfold sub32
  have e : (a : Int) - b = ((a - b : Nat) : Int) := by omega
  have h2 : ((a - b : Nat) : Int) % (m32 : Int) = ((a - b : Nat) : Int) := Int.emod_eq_of_lt (by omega) (by omega)
  show (((a : Int) - b) % (m32 : Int)).toNat = a - b
  rw [e, h2]; rfl

theorem sub_cnt {w : Word} {n : Nat} (h : n ≤ w.cnt) (ha : w.cnt < m28) : (w.sub n).cnt = w.cnt - n := by
  have e : (w.cnt : Int) - n = ((w.cnt - n : Nat) : Int) := by omega
  have h2 : ((w.cnt - n : Nat) : Int) % (m28 : Int) = ((w.cnt - n : Nat) : Int) := Int.emod_eq_of_lt (by omega) (by omega)
  show (((w.cnt : Int) - n) % (m28 : Int)).toNat = w.cnt - n
  rw [e, h2]; rfl

theorem sub_cnt_lt (w : Word) (n : Nat) : (w.sub n).cnt < m28 := by
  show (((w.cnt : Int) - n) % (m28 : Int)).toNat < m28
  have : (0 : Int) < m28 := by unfold m28; decide
  have := Int.emod_lt_of_pos ((w.cnt : Int) - n) this
  have := Int.emod_nonneg ((w.cnt : Int) - n) (b := (m28 : Int)) (by omega)
  omega

@[simp] theorem sub_lock (w : Word) (n : Nat) : (w.sub n).lock = w.lock := rfl
@[simp] theorem sub_stop (w : Word) (n : Nat) : (w.sub n).stop = w.stop := rfl
@[simp] theorem sub_intr (w : Word) (n : Nat) : (w.sub n).intr = w.intr := rfl

/-- with the push lock held the addition releases it and raises the counter by one -/
theorem add15_locked {w : Word} (hl : w.lock = true) (hb : w.cnt + 1 < m28) : w.add15 = { w with lock := false, cnt := w.cnt + 1 } := by
  obtain ⟨l, s, i, b, c⟩ := w
  dsimp only at hl hb
  subst hl
  unfold Word.add15 Word.ofRaw Word.raw
  have hc : ∀ k, k < 16 → (k + 16 * c + 15) / 16 % m28 = (k + 15) / 16 + c := by
    intro k hk
    have : (k + 16 * c + 15) / 16 = (k + 15) / 16 + c := by omega
    rw [this, Nat.mod_eq_of_lt]; omega
  cases s <;> cases i <;> cases b <;> (simp only [Bool.toNat_true, Bool.toNat_false]; rw [hc _ (by decide)]; simp; try omega)

theorem raw_lt (w : Word) (k : Nat) : w.raw < 16 * k ↔ w.cnt < k := by
  unfold Word.raw
  have := w.lock.toNat_le; have := w.stop.toNat_le; have := w.intr.toNat_le; have := w.bg.toNat_le
  omega

/-! ### counting -/

def isProd : PC → Nat
  | .locked _ => 1
  | .pushed => 1
  | .pushedR _ => 1
  | _ => 0
/-- pushed, not yet counted -/
def unc : PC → Nat
  | .pushed => 1
  | .pushedR _ => 1
  | _ => 0
def isEarly : PC → Nat
  | .pushedR _ => 1
  | _ => 0
def isRun : RPC → Nat
  | .run _ => 1
  | _ => 0
def inLoop : RPC → Nat
  | .out => 0
  | .cleanup => 0
  | _ => 1

structure Sums (l l' : List PC) (p q : PC) : Prop where
  prod : sumBy isProd l' + isProd p = sumBy isProd l + isProd q
  unc : sumBy unc l' + unc p = sumBy unc l + unc q
  early : sumBy isEarly l' + isEarly p = sumBy isEarly l + isEarly q
  lp : isProd p ≤ sumBy isProd l
  lu : ThreadRunner.unc p ≤ sumBy ThreadRunner.unc l
  le : isEarly p ≤ sumBy isEarly l

theorem sums_of {l : List PC} {i : Nat} {p : PC} (h : l[i]? = some p) (q : PC) : Sums l (l.set i q) p q :=
  ⟨sumBy_set _ _ _ _ _ h, sumBy_set _ _ _ _ _ h, sumBy_set _ _ _ _ _ h, le_sumBy _ _ _ _ h, le_sumBy _ _ _ _ h, le_sumBy _ _ _ _ h⟩

theorem sumBy_replicate {α} (f : α → Nat) (x : α) (hx : f x = 0) (n : Nat) : sumBy f (List.replicate n x) = 0 := by
  induction n with
  | zero => rfl
  | succ n ih => simp [List.replicate_succ, ih, hx]

/-! ### invariant of every environment -/

structure InvA (s : St) : Prop where
  rr : s.r = s.stack.length + inLoop s.pc
  top : s.pc = .out → s.stack = []
  lock : s.cleaned = false → sumBy isProd s.threads = s.word.lock.toNat
  log : s.cleaned = false → s.pushedLog = s.started ++ s.queue
  cb : s.word.cnt < m28
  clean : s.pc = .cleanup → s.cleaned = true

theorem invA_init {bg s} (h : Init bg s) : InvA s := by
  obtain ⟨n, rfl⟩ := h
  exact ⟨rfl, fun _ => rfl, fun _ => by simp [sumBy_replicate isProd PC.idle rfl n], fun _ => rfl, by show 0 < m28; unfold m28; decide, by simp⟩

/-- a step of another thread -/
theorem invA_thread {s s' : St} (hI : InvA s) {i : Nat} {p q : PC} (h : s.threads[i]? = some p) (hs : s'.threads = s.threads.set i q)
    (h1 : s'.r = s.r) (h2 : s'.stack = s.stack) (h3 : s'.pc = s.pc) (h4 : s'.cleaned = s.cleaned)
    (hl : s'.cleaned = false → s'.word.lock.toNat + isProd p = s.word.lock.toNat + isProd q)
    (hg : s.pushedLog = s.started ++ s.queue → s'.pushedLog = s'.started ++ s'.queue)
    (hc : s'.word.cnt < m28) : InvA s' := by
  have u := sums_of h q
  obtain ⟨c1, c2, c3, c4, c5, c6⟩ := hI
  refine ⟨by rw [h1, h2, h3]; exact c1, by rw [h2, h3]; exact c2, fun h0 => ?_, fun h0 => hg (c4 (h4 ▸ h0)), hc, by rw [h3, h4]; exact c6⟩
  have a := hl h0
  have b := c3 (h4 ▸ h0)
  have := u.prod
  rw [← hs] at this
  omega

/-- a step of the runner's thread -/
theorem invA_run {s s' : St} (hI : InvA s) (ht : s'.threads = s.threads) (hl : s'.word.lock = s.word.lock)
    (hc : s'.word.cnt < m28) (h4 : s'.cleaned = false → s.cleaned = false)
    (hg : s.cleaned = false → s.pushedLog = s.started ++ s.queue → s'.pushedLog = s'.started ++ s'.queue)
    (hr : s'.r = s'.stack.length + inLoop s'.pc) (ho : s'.pc = .out → s'.stack = []) (hk : s'.pc = .cleanup → s'.cleaned = true) : InvA s' := by
  obtain ⟨c1, c2, c3, c4, c5, c6⟩ := hI
  exact ⟨hr, ho, fun h0 => by rw [ht, hl]; exact c3 (h4 h0), fun h0 => hg (h4 h0) (c4 (h4 h0)), hc, hk⟩

theorem resume_len (l : List Frame) : l.length = l.tail.length + inLoop (resume l) := by
  match l with
  | [] => rfl
  | .task t :: l => rfl
  | .cb k :: l => rfl
theorem resume_out (l : List Frame) (h : resume l = .out) : l.tail = [] := by
  match l with
  | [] => rfl
  | .task t :: l => cases h
  | .cb k :: l => cases h
theorem resume_cleanup (l : List Frame) : resume l ≠ .cleanup := by
  match l with
  | [] => nofun
  | .task t :: l => nofun
  | .cb k :: l => nofun

theorem inLoop_afterStart (bg) : inLoop (afterStart bg) = 1 := by cases bg <;> rfl

theorem invA_go {s : St} (hI : InvA s) (q : RPC) (hp : inLoop s.pc = 1) (hq : inLoop q = 1) : InvA { s with pc := q } :=
  invA_run hI rfl rfl hI.cb id (fun _ h => h) (by have := hI.rr; show s.r = s.stack.length + inLoop q; omega)
    (fun h => by dsimp only at h; rw [h] at hq; cases hq) (fun h => by dsimp only at h; rw [h] at hq; cases hq)

theorem invA_step {bg E} {s s' : St} (hI : InvA s) (hs : Step bg E s s') : InvA s' := by
  have ⟨c1, c2, c3, c4, c5, c6⟩ := hI
  have lockd : ∀ {i : Nat} {p : PC}, s.threads[i]? = some p → isProd p = 1 → s.cleaned = false → s.word.lock = true := by
    intro i p h hp hc
    have := (sums_of h .idle).lp
    have := c3 hc
    cases hl : s.word.lock with
    | true => rfl
    | false => rw [hl, show false.toNat = 0 from rfl] at this; omega
  have addc : s.word.add15.cnt < m28 := by
    show (s.word.raw + 15) / 16 % m28 < m28
    exact Nat.mod_lt _ (by unfold m28; decide)
  cases hs with
  | refuse => exact hI
  | post i t h hs => exact invA_thread hI h rfl rfl rfl rfl rfl (fun _ => rfl) id c5
  | lock i t h hl => exact invA_thread hI h rfl rfl rfl rfl rfl (fun _ => by show 1 + 0 = _ + 1; rw [hl]; rfl) id c5
  | push i t h => exact invA_thread hI h rfl rfl rfl rfl rfl (fun _ => rfl) (fun e => by show s.pushedLog ++ [t] = s.started ++ (s.queue ++ [t]); rw [e, List.append_assoc]) c5
  | add i h hb =>
    refine invA_thread hI h rfl rfl rfl rfl rfl (fun h0 => ?_) id addc
    have hl := lockd h rfl h0
    show s.word.add15.lock.toNat + 1 = _ + 0
    rw [add15_locked hl hb, hl]; rfl
  | readEarly i h he => exact invA_thread hI h rfl rfl rfl rfl rfl (fun _ => rfl) id c5
  | addEarly i r h hb =>
    refine invA_thread (q := if s.word.add15.raw < 16 * (2 + r) then .wake else .idle) hI h rfl rfl rfl rfl rfl (fun h0 => ?_) id addc
    have hl := lockd h rfl h0
    have : isProd (if s.word.add15.raw < 16 * (2 + r) then PC.wake else PC.idle) = 0 := by split <;> rfl
    rw [this]
    show s.word.add15.lock.toNat + 1 = _ + 0
    rw [add15_locked hl hb, hl]; rfl
  | compare i x h =>
    have : isProd (if x < 16 * (2 + s.r) then PC.wake else PC.idle) = 0 := by split <;> rfl
    exact invA_thread hI h rfl rfl rfl rfl rfl (fun _ => by rw [this]; rfl) id c5
  | wake i h => exact invA_thread hI h rfl rfl rfl rfl rfl (fun _ => rfl) id c5
  | wakeLost i h ho => exact invA_thread hI h rfl rfl rfl rfl rfl (fun _ => rfl) id c5
  | join i h =>
    have : isProd (if s.word.raw < 16 then PC.idle else PC.joining) = 0 := by split <;> rfl
    exact invA_thread hI h rfl rfl rfl rfl rfl (fun _ => by rw [this]; rfl) id c5
  | joined i h hw => exact invA_thread hI h rfl rfl rfl rfl rfl (fun _ => rfl) id c5
  | interrupt => exact ⟨c1, c2, c3, c4, c5, c6⟩
  | disable => exact ⟨c1, c2, c3, c4, c5, c6⟩
  | enable => exact ⟨c1, c2, c3, c4, c5, c6⟩
  | unshare => exact ⟨c1, c2, c3, c4, c5, c6⟩
  | enter h =>
    refine invA_run hI rfl rfl c5 id (fun _ h => h) ?_ (by cases bg <;> nofun) (by cases bg <;> nofun)
    rw [h] at c1
    show s.r + 1 = s.stack.length + inLoop (afterStart bg)
    rw [inLoop_afterStart, c1]; rfl
  | nestTask t h =>
    refine invA_run hI rfl rfl c5 id (fun _ h => h) ?_ (by cases bg <;> nofun) (by cases bg <;> nofun)
    rw [h] at c1
    show s.r + 1 = s.stack.length + 1 + inLoop (afterStart bg)
    rw [inLoop_afterStart, c1]; rfl
  | nestCb k h he =>
    refine invA_run hI rfl rfl c5 id (fun _ h => h) ?_ (by cases bg <;> nofun) (by cases bg <;> nofun)
    rw [h] at c1
    show s.r + 1 = s.stack.length + 1 + inLoop (afterStart bg)
    rw [inLoop_afterStart, c1]; rfl
  | peekChk h => exact invA_go hI _ (by rw [h]; rfl) (by split <;> rfl)
  | peekWake h hm => exact invA_run hI rfl rfl c5 id (fun _ h => h) (by rw [h] at c1; exact c1) nofun nofun
  | peekMsg h => exact invA_go hI _ (by rw [h]; rfl) rfl
  | peekQuit h => exact invA_go hI _ (by rw [h]; rfl) rfl
  | peekNone h hm => exact invA_go hI _ (by rw [h]; rfl) rfl
  | load h => exact invA_run hI rfl rfl c5 id (fun _ h => h) (by rw [h] at c1; cases bg <;> exact c1) (by cases bg <;> nofun) (by cases bg <;> nofun)
  | chk h => exact invA_go hI _ (by rw [h]; rfl) (by split <;> rfl)
  | decIdle h hp => exact invA_go hI _ (by rw [h]; rfl) (by cases bg <;> rfl)
  | decRun h hp => exact invA_go hI _ (by rw [h]; rfl) (by cases bg <;> rfl)
  | timerCb h => exact invA_go hI _ (by rw [h]; rfl) rfl
  | timerDone h => exact invA_go hI _ (by rw [h]; rfl) (by cases bg <;> rfl)
  | sub h hp =>
    have e : inLoop (afterSub bg (s.word.sub s.proc).cnt s.r) = 1 := by unfold afterSub; split <;> cases bg <;> rfl
    refine invA_run hI rfl rfl (sub_cnt_lt _ _) id (fun _ h => h) ?_ ?_ ?_
    · rw [h] at c1
      show s.r = s.stack.length + inLoop (afterSub bg (s.word.sub s.proc).cnt s.r)
      rw [e]; exact c1
    · intro h0; dsimp only at h0; rw [h0] at e; cases e
    · intro h0; dsimp only at h0; rw [h0] at e; cases e
  | sub0 h hp => exact invA_go hI _ (by rw [h]; rfl) (by cases bg <;> rfl)
  | wokenMsg h => exact invA_go hI _ (by rw [h]; rfl) (by cases bg <;> rfl)
  | wokenOther h => exact invA_go hI _ (by rw [h]; rfl) (by cases bg <;> rfl)
  | wokenWait h => exact invA_go hI _ (by rw [h]; rfl) rfl
  | drainChk h => exact invA_go hI _ (by rw [h]; rfl) (by split <;> rfl)
  | drainWake h hm => exact invA_run hI rfl rfl c5 id (fun _ h => h) (by rw [h] at c1; exact c1) nofun nofun
  | drainMsg h => exact invA_go hI _ (by rw [h]; rfl) rfl
  | drainQuit h => exact invA_go hI _ (by rw [h]; rfl) rfl
  | drainNone h hm => exact invA_go hI _ (by rw [h]; rfl) rfl
  | popChk h => exact invA_go hI _ (by rw [h]; rfl) (by split <;> rfl)
  | pop t q h hq =>
    refine invA_run hI rfl rfl c5 id (fun _ e => ?_) (by rw [h] at c1; exact c1) nofun nofun
    show s.pushedLog = s.started ++ [t] ++ q
    rw [e, hq, List.append_assoc]; rfl
  | popNone h hq => exact invA_run hI rfl rfl c5 id (fun _ h => h) (by rw [h] at c1; cases bg <;> exact c1) (by cases bg <;> nofun) (by cases bg <;> nofun)
  | runEnd t h => exact invA_run hI rfl rfl c5 id (fun _ h => h) (by rw [h] at c1; cases bg <;> exact c1) (by cases bg <;> nofun) (by cases bg <;> nofun)
  | cbEnd k h => exact invA_go hI _ (by rw [h]; rfl) (by cases k <;> cases bg <;> rfl)
  | pumpTask t h hm => exact invA_run hI rfl rfl c5 id (fun _ h => h) c1 c2 c6
  | pumpCb k h he hm => exact invA_run hI rfl rfl c5 id (fun _ h => h) c1 c2 c6
  | leave h hc =>
    refine invA_run hI rfl rfl c5 id (fun _ h => h) ?_ (resume_out _) (fun h => absurd h (resume_cleanup _))
    rw [h] at c1
    have := resume_len s.stack
    have e : inLoop RPC.ret = 1 := rfl
    show s.r - 1 = s.stack.tail.length + inLoop (resume s.stack)
    omega
  | leaveClean h hc =>
    refine invA_run hI rfl rfl c5 (fun h => by cases h) (fun _ h => h) ?_ nofun (fun _ => rfl)
    rw [h] at c1
    show s.r - 1 = s.stack.length + 0
    have e : inLoop RPC.ret = 1 := rfl
    omega
  | cleanPop t q h hq =>
    have hc := c6 h
    exact ⟨c1, c2, (fun h0 => by rw [hc] at h0; cases h0), (fun h0 => by rw [hc] at h0; cases h0), c5, c6⟩
  | cleanEnd h hq =>
    have hc := c6 h
    refine ⟨?_, resume_out _, (fun h0 => by rw [hc] at h0; cases h0), (fun h0 => by rw [hc] at h0; cases h0), by show 0 < m28; unfold m28; decide, fun h => absurd h (resume_cleanup _)⟩
    rw [h] at c1
    have := resume_len s.stack
    have e : inLoop RPC.cleanup = 0 := rfl
    show s.r = s.stack.tail.length + inLoop (resume s.stack)
    omega

theorem reach_invA {bg E} {s : St} (h : Reach bg E s) : InvA s := by
  induction h with
  | init s h => exact invA_init h
  | step s s' _ hs ih => exact invA_step ih hs

end Verif.ThreadRunner
