import Verif.WaitObj.Model
/-!
# C104 – waiting for an object ends with the documented result
-/
namespace Verif.WaitObj

/-- the documentation (TaskRunner.h 339-351, 394-397): the four results and when they are to be given -/
def documented : End → Nat
  | .object .signalled => 0
  | .object .abandoned => 0x80
  | .object .bad => 0xFFFFFFFF
  | .limit => 0x102
  | .object .quiet => 0x102

/-- a pending wait ends: the object gets signalled or abandoned, turns out to be bad, or the time is over -/
def Ends (e : End) : Prop := e ≠ .object .quiet

/-- the waits that a thread task runner has room for -/
def OnThread : Runner → Prop
  | .own n => n < 63
  | .other n stopped => n < 63 ∧ stopped = false
  | .pool => False

/-- the waits that go to the thread pool -/
def OnPool : Runner → Prop
  | .own n => 63 ≤ n
  | .other n stopped => 63 ≤ n ∧ stopped = false
  | .pool => True

theorem ms_pos (d : Int) : ms d > 0 ↔ d ≥ 10000 := by
  unfold ms
  by_cases h : 0 ≤ d
  · rw [Int.tdiv_eq_ediv_of_nonneg h]; omega
  · have : d.tdiv 10000 ≤ 0 := by
      have h1 : (-d).tdiv 10000 = -(d.tdiv 10000) := Int.neg_tdiv ..
      have h2 := Int.tdiv_nonneg (a := -d) (b := 10000) (by omega) (by omega)
      omega
    omega

/-- **C104 (partial)**: a null or invalid handle is reported at once: `WAIT_FAILED`, or no `Wait` object -/
theorem C104_null_partial (r : Runner) (h : Nat) (hh : h = 0 ∨ h = 2 ^ 64 - 1) (o : Obj) (left : Int) (reg cb : Bool) :
    waitForObject r h o left reg = .resolved 0xFFFFFFFF ∧ createWait r h cb o left reg = none := by
  have e : invalidHandle = 2 ^ 64 - 1 := by unfold invalidHandle; rfl
  rw [← e] at hh
  unfold waitForObject createWait
  rw [if_pos hh, if_pos hh]
  exact ⟨rfl, rfl⟩

theorem valid {h : Nat} (h0 : h ≠ 0) (h1 : h ≠ 2 ^ 64 - 1) : ¬ (h = 0 ∨ h = invalidHandle) := by
  have e : invalidHandle = 2 ^ 64 - 1 := by unfold invalidHandle; rfl
  rw [e]; rintro (a | a)
  · exact h0 a
  · exact h1 a

theorem onThread_set {r : Runner} (hr : OnThread r) (o : Obj) (left : Int) (reg : Bool) : setWait r o left reg = .thread := by
  cases r with
  | pool => exact hr.elim
  | own n => have hr : n < 63 := hr; unfold setWait ownSet; dsimp only; rw [if_neg (by omega)]
  | other n st => obtain ⟨a, b⟩ := hr; subst b; unfold setWait ownSet; dsimp only; rw [if_neg (by decide), if_neg (by omega)]

theorem onPool_set {r : Runner} (hr : OnPool r) (o : Obj) (left : Int) (reg : Bool) : setWait r o left reg = dispatch o left reg := by
  cases r with
  | pool => rfl
  | own n => have hr : 63 ≤ n := hr; unfold setWait ownSet; dsimp only; rw [if_pos hr]
  | other n st => obtain ⟨a, b⟩ := hr; subst b; unfold setWait ownSet; dsimp only; rw [if_neg (by decide), if_pos a]

/-- **C104 (partial)**: while a thread task runner has room, every end of the wait is reported as documented, to `WaitForObjectAsync` and to the callback of `CreateWait`.
Missing: what goes to the thread pool (below), and stopped runners. -/
theorem C104_thread_partial (r : Runner) (hr : OnThread r) (h : Nat) (h0 : h ≠ 0) (h1 : h ≠ 2 ^ 64 - 1) (o : Obj) (left : Int) (reg : Bool) (e : End) (he : Ends e) :
    finish (waitForObject r h o left reg) e = .resolved (documented e) ∧
    ∃ f, createWait r h true o left reg = some f ∧ callbackArg (finish f e) = some (documented e) := by
  have hs := onThread_set hr o left reg
  unfold waitForObject createWait
  rw [if_neg (valid h0 h1), if_neg (valid h0 h1), if_neg (by decide), hs]
  cases e with
  | limit => exact ⟨rfl, _, rfl, rfl⟩
  | object o' => cases o' with
    | quiet => exact absurd rfl he
    | _ => exact ⟨rfl, _, rfl, rfl⟩

/-- **C104 (partial)**: on the thread pool (also from the 64th handle of a thread on) a signalled object and the limit are reported as documented, once the wait could be registered; the
limit given to the system is the time left in whole milliseconds -/
theorem C104_pool_partial (r : Runner) (hr : OnPool r) (h : Nat) (h0 : h ≠ 0) (h1 : h ≠ 2 ^ 64 - 1) (o : Obj) (left : Int) (hl : 10000 ≤ left) (e : End)
    (he : e = .object .signalled ∨ e = .limit) :
    finish (waitForObject r h o left true) e = .resolved (documented e) ∧
    (∃ f, createWait r h true o left true = some f ∧ callbackArg (finish f e) = some (documented e)) ∧
    ∃ n, waitForObject r h o left true = .pool n ∧ (left < 42949672950000 → (n : Int) * 10000 ≤ left ∧ left < n * 10000 + 10000) := by
  have hm := (ms_pos left).2 hl
  have hu : u32max = 4294967295 := by unfold u32max; rfl
  have hs : setWait r o left true = .pool (min (ms left) u32max).toNat := by
    rw [onPool_set hr]
    unfold dispatch
    rw [if_neg (by omega), if_pos rfl]
  unfold waitForObject createWait
  rw [if_neg (valid h0 h1), if_neg (valid h0 h1), if_neg (by decide), hs]
  refine ⟨?_, ⟨_, rfl, ?_⟩, _, rfl, fun hlt => ?_⟩
  · rcases he with rfl | rfl <;> rfl
  · rcases he with rfl | rfl <;> rfl
  · have : ms left = left / 10000 := by unfold ms; exact Int.tdiv_eq_ediv_of_nonneg (by omega)
    rw [this, hu]
    omega

/-- **C104 (partial)**: when no time is left on the thread pool, the state of the object is reported at once as documented, all four results included -/
theorem C104_poll_partial (r : Runner) (hr : OnPool r) (h : Nat) (h0 : h ≠ 0) (h1 : h ≠ 2 ^ 64 - 1) (o : Obj) (left : Int) (hl : left < 10000) (reg : Bool) :
    waitForObject r h o left reg = .resolved (documented (.object o)) ∧
    ∃ f, createWait r h true o left reg = some f ∧ callbackArg f = some (documented (.object o)) := by
  have hm : ms left ≤ 0 := by
    have := ms_pos left
    by_cases c : ms left > 0
    · have := this.1 c; omega
    · omega
  have hs : setWait r o left reg = .resolved (single o) := by
    rw [onPool_set hr]; unfold dispatch; rw [if_pos hm]
  unfold waitForObject createWait
  rw [if_neg (valid h0 h1), if_neg (valid h0 h1), if_neg (by decide), hs]
  cases o <;> exact ⟨rfl, _, rfl, rfl⟩

/-- **C104 fails**: a mutex that is abandoned while the thread pool waits for it is always reported as `WAIT_OBJECT_0`, never as `WAIT_ABANDONED`; on a thread runner the same wait gives `WAIT_ABANDONED` -/
theorem C104_abandoned_fails (r : Runner) (hr : OnPool r) (h : Nat) (h0 : h ≠ 0) (h1 : h ≠ 2 ^ 64 - 1) (o : Obj) (left : Int) (hl : 10000 ≤ left) :
    finish (waitForObject r h o left true) (.object .abandoned) = .resolved 0 ∧ documented (.object .abandoned) ≠ 0 := by
  obtain ⟨_, _, n, h2, _⟩ := C104_pool_partial r hr h h0 h1 o left hl .limit (.inr rfl)
  rw [h2]
  exact ⟨rfl, by decide⟩

/-- **C104 fails**: a handle that the thread pool cannot wait for does not give `WAIT_FAILED` but the status `Error` (an exception for whoever awaits it), and the callback of `CreateWait`,
which has returned an object, is never called -/
theorem C104_refused_fails (r : Runner) (hr : OnPool r) (h : Nat) (h0 : h ≠ 0) (h1 : h ≠ 2 ^ 64 - 1) (o : Obj) (left : Int) (hl : 10000 ≤ left) :
    waitForObject r h o left false = .error ∧
    ∃ f, createWait r h true o left false = some f ∧ ∀ e, callbackArg (finish f e) = none := by
  have hm := (ms_pos left).2 hl
  have hs : setWait r o left false = .error := by
    rw [onPool_set hr]; unfold dispatch; rw [if_neg (by omega), if_neg (by decide)]
  unfold waitForObject createWait
  rw [if_neg (valid h0 h1), if_neg (valid h0 h1), if_neg (by decide), hs]
  exact ⟨rfl, _, rfl, fun _ => rfl⟩

/-- **C104 fails**: `CreateWait` of a stopped thread runner, called from another thread, returns an object whose wait is registered nowhere: whatever happens the callback is not called,
not even when the time is over -/
theorem C104_stopped_fails (n : Nat) (h : Nat) (h0 : h ≠ 0) (h1 : h ≠ 2 ^ 64 - 1) (o : Obj) (left : Int) (reg : Bool) :
    ∃ f, createWait (.other n true) h true o left reg = some f ∧ ∀ e, callbackArg (finish f e) = none := by
  unfold createWait
  rw [if_neg (valid h0 h1), if_neg (by decide)]
  exact ⟨_, rfl, fun _ => rfl⟩

/-- a wait of 5 s for handle 4: on a thread, on a full thread, without time, on a stopped runner -/
theorem C104_example :
    finish (waitForObject (.own 62) 4 .quiet 50000000 true) (.object .abandoned) = .resolved 0x80 ∧
    waitForObject (.own 63) 4 .quiet 50000000 true = .pool 5000 ∧
    waitForObject .pool 4 .abandoned 9999 true = .resolved 0x80 ∧
    createWait (.other 3 true) 4 true .signalled 50000000 true = some .nowhere ∧
    createWait (.other 3 false) 4 true .signalled 50000000 true = some .thread := by
  refine ⟨?_, ?_, ?_, ?_, ?_⟩ <;> decide +kernel

end Verif.WaitObj
