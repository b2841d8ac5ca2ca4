import Verif.MsgLoop.Lemmas
/-! Ranking functions of the two loops. -/
namespace Verif.MsgLoop

/-- nothing that happened is undone -/
structure Mono (s u : St) : Prop where
  posted : s.posted <+: u.posted
  tasks : s.ran ++ s.queue <+: u.ran ++ u.queue
  removed : s.removed.length ≤ u.removed.length
  ran : s.ran.length ≤ u.ran.length
  fin : Finished s → Finished u
  intr : s.intr = true → u.intr = true
  waited : s.waited ≤ u.waited
  timed : s.timed ≤ u.timed

theorem Mono.refl (s : St) : Mono s s := ⟨List.prefix_refl _, List.prefix_refl _, Nat.le_refl _, Nat.le_refl _, id, id, Nat.le_refl _, Nat.le_refl _⟩
theorem Mono.trans {s t u : St} (h1 : Mono s t) (h2 : Mono t u) : Mono s u :=
  ⟨h1.posted.trans h2.posted, h1.tasks.trans h2.tasks, Nat.le_trans h1.removed h2.removed, Nat.le_trans h1.ran h2.ran,
    fun h => h2.fin (h1.fin h), fun h => h2.intr (h1.intr h), Nat.le_trans h1.waited h2.waited,
    Nat.le_trans h1.timed h2.timed⟩

theorem mono_arrive (s : St) (m) : Mono s (s.arrive m) :=
  ⟨List.prefix_append _ _, List.prefix_refl _, Nat.le_refl _, Nat.le_refl _, id, id, Nat.le_refl _, Nat.le_refl _⟩

theorem mono_post (s : St) (t) : Mono s (s.post t) := by
  have h : Mono s { s with queue := s.queue ++ [t], cnt := s.cnt + 1 } :=
    ⟨List.prefix_refl _, ⟨[t], by simp⟩, Nat.le_refl _, Nat.le_refl _, id, id, Nat.le_refl _, Nat.le_refl _⟩
  unfold St.post
  dsimp only
  split
  · exact h.trans (mono_arrive _ _)
  · exact h

theorem mono_take {s : St} (hq : ∀ r, s.pc ≠ .done r) (m rest) : Mono s (s.take m rest) := by
  have hf : ¬Finished s := fun ⟨r, h⟩ => hq r h
  cases m <;>
    exact ⟨List.prefix_refl _, List.prefix_refl _, by simp [St.take], Nat.le_refl _, fun h => absurd h hf, id, Nat.le_refl _, Nat.le_refl _⟩

theorem mono_run {s : St} : Mono s s.runTask := by
  unfold St.runTask
  split
  · exact .refl _
  · rename_i t q hq
    exact ⟨List.prefix_refl _, by simp [hq], Nat.le_refl _, by simp, id, id, Nat.le_refl _, Nat.le_refl _⟩

/-- a change of the private fields only -/
theorem mono_priv {s u : St} (hq : ∀ r, s.pc ≠ .done r) (h1 : u.posted = s.posted) (h2 : u.ran = s.ran) (h3 : u.queue = s.queue)
    (h4 : u.removed = s.removed) (h5 : u.intr = s.intr) (h6 : s.waited ≤ u.waited) (h7 : s.timed ≤ u.timed) : Mono s u := by
  have hf : ¬Finished s := fun ⟨r, h⟩ => hq r h
  exact ⟨by rw [h1]; exact List.prefix_refl _, by rw [h2, h3]; exact List.prefix_refl _, by rw [h4]; exact Nat.le_refl _, by rw [h2]; exact Nat.le_refl _, fun h => absurd h hf,
    by rw [h5]; exact id, h6, h7⟩

theorem serve_fields (s : St) (w) : (s.serve w).posted = s.posted ∧ (s.serve w).ran = s.ran ∧ (s.serve w).queue = s.queue ∧
    (s.serve w).removed = s.removed ∧ (s.serve w).intr = s.intr ∧ (s.serve w).mq = s.mq ∧ (s.serve w).pc = s.pc ∧
    (s.serve w).processed = s.processed ∧ (s.serve w).pending = s.pending := by
  cases w <;> simp [St.serve]

theorem mono_ui {E w} {s s' : St} (hs : uiStep E w s = some s') : Mono s s' := by
  unfold uiStep at hs
  split at hs
  · rename_i hpc
    have hq : ∀ r, s.pc ≠ .done r := by simp [hpc]
    split at hs
    · injection hs with hs; subst hs
      exact mono_priv hq rfl rfl rfl rfl rfl (Nat.le_refl _) (by simp)
    · split at hs
      · injection hs with hs; subst hs
        exact mono_priv hq rfl rfl rfl rfl rfl (Nat.le_refl _) (by simp)
      · injection hs with hs; subst hs
        exact mono_take hq _ _
  · rename_i hpc
    injection hs with hs; subst hs
    exact mono_priv (by simp [hpc]) rfl rfl rfl rfl rfl (Nat.le_refl _) (by simp)
  · rename_i hpc
    have hq : ∀ r, s.pc ≠ .done r := by simp [hpc]
    split at hs
    · injection hs with hs; subst hs
      exact mono_priv hq rfl rfl rfl rfl rfl (Nat.le_refl _) (by simp)
    · split at hs
      · split at hs
        · injection hs with hs; subst hs
          exact mono_priv hq rfl rfl rfl rfl rfl (Nat.le_refl _) (by simp)
        · dsimp only at hs
          split at hs <;> (injection hs with hs; subst hs; exact mono_priv hq rfl rfl rfl rfl rfl (Nat.le_refl _) (by simp))
      · injection hs with hs; subst hs
        exact mono_run
  · rename_i hpc
    injection hs with hs; subst hs
    obtain ⟨h1, h2, h3, h4, h5, -⟩ := serve_fields { s with pc := .peek, fresh := freshAfter E w s } w
    exact mono_priv (by simp [hpc]) h1 h2 h3 h4 h5 (by cases w <;> simp [St.serve]) (by cases w <;> simp [St.serve])
  · exact absurd hs (by simp)
  · exact absurd hs (by simp)

theorem mono_bg {E w} {s s' : St} (hs : bgStep E w s = some s') : Mono s s' := by
  unfold bgStep at hs
  split at hs
  · exact absurd hs (by simp)
  · rename_i hpc
    injection hs with hs; subst hs
    exact mono_priv (by simp [hpc]) rfl rfl rfl rfl rfl (Nat.le_refl _) (by simp)
  · rename_i hpc
    have hq : ∀ r, s.pc ≠ .done r := by simp [hpc]
    split at hs
    · split at hs
      · injection hs with hs; subst hs
        exact mono_priv hq rfl rfl rfl rfl rfl (Nat.le_refl _) (by simp)
      · dsimp only at hs
        split at hs <;> (injection hs with hs; subst hs; exact mono_priv hq rfl rfl rfl rfl rfl (Nat.le_refl _) (by simp))
    · split at hs
      · injection hs with hs; subst hs
        exact mono_priv hq rfl rfl rfl rfl rfl (Nat.le_refl _) (by simp)
      · injection hs with hs; subst hs
        exact mono_run
  · rename_i hpc
    have hq : ∀ r, s.pc ≠ .done r := by simp [hpc]
    split at hs
    · injection hs with hs; subst hs
      exact mono_priv hq rfl rfl rfl rfl rfl (Nat.le_refl _) (by simp)
    · injection hs with hs; subst hs
      obtain ⟨h1, h2, h3, h4, h5, -⟩ := serve_fields { s with pc := .load, fresh := freshAfter E w s } w
      exact mono_priv hq h1 h2 h3 h4 h5 (by cases w <;> simp [St.serve]) (by cases w <;> simp [St.serve])
  · rename_i hpc
    have hq : ∀ r, s.pc ≠ .done r := by simp [hpc]
    split at hs
    · injection hs with hs; subst hs
      exact mono_priv hq rfl rfl rfl rfl rfl (Nat.le_refl _) (by simp)
    · split at hs
      · injection hs with hs; subst hs
        exact mono_priv hq rfl rfl rfl rfl rfl (Nat.le_refl _) (by simp)
      · injection hs with hs; subst hs
        exact mono_take hq _ _
  · exact absurd hs (by simp)

theorem mono_step {bg E l} {s s' : St} (hs : Step bg E l s s') : Mono s s' := by
  cases hs with
  | runner _ w s' hw hl =>
    cases bg
    · exact mono_ui hl
    · exact mono_bg hl
  | msg _ m => exact mono_arrive s m
  | task _ t => exact mono_post s t
  | signal => exact ⟨List.prefix_refl _, List.prefix_refl _, Nat.le_refl _, Nat.le_refl _, id, id, Nat.le_refl _, Nat.le_refl _⟩
  | intr => exact ⟨List.prefix_refl _, List.prefix_refl _, Nat.le_refl _, Nat.le_refl _, id, fun _ => rfl, Nat.le_refl _, Nat.le_refl _⟩
  | unshare => exact ⟨List.prefix_refl _, List.prefix_refl _, Nat.le_refl _, Nat.le_refl _, id, id, Nat.le_refl _, Nat.le_refl _⟩
  | look => exact ⟨List.prefix_refl _, List.prefix_refl _, Nat.le_refl _, Nat.le_refl _, id, id, Nat.le_refl _, Nat.le_refl _⟩

theorem mono_runs {bg E d} {s u : St} {n k} (h : Run bg E d s n k u) : Mono s u := by
  induction h with
  | nil s => exact .refl s
  | cons hs _ ih => exact (mono_step hs).trans ih

/-- A ranking argument. `W` is what still waits, `G` the goal, `rank` bounds the remaining runner steps. -/
theorem rank_run {bg E d} {W G : St → Prop} {rank : St → Nat}
    (hG : ∀ {s t}, Mono s t → G s → G t)
    (hr : ∀ {l s t}, Inv s → W s → Step bg E l s t → G t ∨ (W t ∧ rank t + l.isRunner ≤ rank s + d s.pc l))
    {s u : St} {n k} (h : Run bg E d s n k u) (hI : Inv s) (hW : W s) (h0 : ∀ s, W s → 0 < rank s) (hn : rank s + k ≤ n) : G u := by
  induction h with
  | nil s => have := h0 s hW; omega
  | @cons l s t u n k hs hrun ih =>
    rcases hr hI hW hs with hg | ⟨hW', hle⟩
    · exact hG (mono_runs hrun) hg
    · exact ih (inv_step hI hs) hW' (by omega)

end Verif.MsgLoop
