import Verif.Sequenced.LifeProps
/-!
# C109 – concrete executions
-/
namespace Verif.Sequenced.Life
open Verif.Common Verif.Sequenced

theorem lt_cntMod (n : Nat) (h : n < 10) : n + 1 < cntMod := by unfold cntMod; omega

/-- thread 0 posts task `t` as the first task and hands the job to the pool -/
theorem post_first {s : St} (h : Reach s) (hd : s.dead = false) (t : Nat) (l : List PC) (hl : s.threads = .idle :: l) (hp : sumBy PC.post s.threads < s.user)
    (hw : s.word = {}) :
    Reach { s with posted := s.posted ++ [t], queue := s.queue ++ [t], word := { cnt := 1 }, refs := s.refs + 1, pool := s.pool + 1 } := by
  obtain ⟨w, q, p, r, u, th, d, b, po, ra, ca⟩ := s
  dsimp only at hd hl hp hw ⊢
  subst hd hl hw
  have h1 := Reach.step h (.post _ 0 t rfl rfl hp)
  have h2 := Reach.step h1 (.cas _ 0 t {} rfl rfl rfl rfl rfl (lt_cntMod 0 (by omega)))
  have h3 := Reach.step h2 (.push _ 0 t true rfl rfl)
  have h4 := Reach.step h3 (.unlock _ 0 true rfl rfl)
  have h5 := Reach.step h4 (.addRef _ 0 rfl rfl)
  exact Reach.step h5 (.submit _ 0 rfl rfl)

/-- thread 0 posts a further task: no new job -/
theorem post_more {s : St} (h : Reach s) (hd : s.dead = false) (t : Nat) (l : List PC) (hl : s.threads = .idle :: l) (hp : sumBy PC.post s.threads < s.user)
    (hw : s.word = { cnt := 1 }) :
    Reach { s with posted := s.posted ++ [t], queue := s.queue ++ [t], word := { cnt := 2 } } := by
  obtain ⟨w, q, p, r, u, th, d, b, po, ra, ca⟩ := s
  dsimp only at hd hl hp hw ⊢
  subst hd hl hw
  have h1 := Reach.step h (.post _ 0 t rfl rfl hp)
  have h2 := Reach.step h1 (.cas _ 0 t { cnt := 1 } rfl rfl rfl rfl rfl (lt_cntMod 1 (by omega)))
  have h3 := Reach.step h2 (.push _ 0 t false rfl rfl)
  exact Reach.step h3 (.unlock _ 0 false rfl rfl)

theorem dec_one : (1 + cntMod - 1) % cntMod = 0 := by
  rw [Nat.add_sub_cancel_left]; exact Nat.mod_self _

theorem sub_last {s : St} (h : Reach s) (i : Nat) (hd : s.dead = false) (hi : s.threads[i]? = some .sub) (hw : s.word = { cnt := 1 }) :
    Reach { s with word := {}, threads := s.threads.set i .tail } := by
  have h1 := Reach.step h (.sub _ i hd hi)
  rw [hw] at h1
  dsimp only at h1
  rw [dec_one] at h1
  exact h1

/-- task 1 has run, its executor has left the loop, tasks 2 and 3 have been posted after that (a second job is in the pool) -/
def late : St := { word := { cnt := 2 }, queue := [2, 3], pool := 1, refs := 3, user := 1, threads := [.idle, .tail, .idle], posted := [1, 2, 3], ran := [1] }

theorem late_reach : Reach late := by
  have h1 := post_first (.init 3) rfl 1 [.idle, .idle] rfl (by decide) rfl
  have h2 := Reach.step h1 (.start _ 1 rfl rfl (by decide))
  have h3 := Reach.step h2 (.check _ 1 rfl rfl)
  have h4 := Reach.step h3 (.pop _ 1 1 [] rfl rfl rfl)
  have h5 := Reach.step h4 (.run _ 1 1 rfl rfl)
  have h6 := Reach.step h5 (.done _ 1 1 rfl rfl)
  have h7 := sub_last h6 1 rfl rfl rfl
  have h8 := post_first h7 rfl 2 [.tail, .idle] rfl (by decide) rfl
  exact post_more h8 rfl 3 [.tail, .idle] rfl (by decide) rfl

/-- The promise of lines 134-136 ("as soon as the user has released the runner the executor leaves and the queue is cancelled") is not kept: the reference of an executor that has left its loop counts as
a user, and the next executor runs a task although nobody owns the runner. -/
theorem C109_abandoned_fails : ∃ s s', Reach s ∧ s.user = 0 ∧ (∀ pc ∈ s.threads, pc = .idle ∨ pc = .tail) ∧ s.queue = [2, 3] ∧ Alone s s' ∧ s'.ran = s.ran ++ [2] := by
  have h0 : Reach { late with refs := 2, user := 0 } := Reach.step late_reach (.drop _ rfl (by decide))
  refine ⟨_, _, h0, rfl, by decide, rfl, .step (.step (.step (.step (.refl _) (.start _ 0 rfl rfl (by decide)) rfl) (.check _ 0 rfl rfl) rfl) (.pop _ 0 2 [3] rfl rfl rfl) rfl)
    (.run _ 0 2 rfl rfl) rfl, rfl⟩

/-- A case of `C109_abandoned_partial`: the user leaves while task 1 runs, tasks 2 is queued; it is cancelled and the runner destroyed. -/
def leaving : St := { word := { cnt := 2 }, queue := [2], pool := 0, refs := 1, user := 0, threads := [.idle, .run 1], posted := [1, 2], ran := [1] }

theorem leaving_reach : Reach leaving := by
  have h1 := post_first (.init 2) rfl 1 [.idle] rfl (by decide) rfl
  have h2 := Reach.step h1 (.start _ 1 rfl rfl (by decide))
  have h3 := Reach.step h2 (.check _ 1 rfl rfl)
  have h4 := Reach.step h3 (.pop _ 1 1 [] rfl rfl rfl)
  have h5 := Reach.step h4 (.run _ 1 1 rfl rfl)
  have h6 := post_more h5 rfl 2 [.run 1] rfl (by decide) rfl
  exact Reach.step h6 (.drop _ rfl (by decide))

example : ∃ s', Alone leaving s' ∧ s'.dead = true ∧ s'.ran = [1] ∧ s'.posted.count 2 = s'.cancelled.count 2 := by
  obtain ⟨s', ha, hd, hc⟩ := C109_released_partial leaving_reach rfl (by decide)
  have hr := C109_abandoned_partial leaving_reach rfl (by decide) (by
    intro i pc hi
    have := List.mem_of_getElem? hi
    simp [leaving] at this
    rcases this with e | e <;> subst e <;> simp) ha
  refine ⟨s', ha, hd, hr, ?_⟩
  have := hc 2
  rw [hr] at this
  simpa [leaving] using this

end Verif.Sequenced.Life
