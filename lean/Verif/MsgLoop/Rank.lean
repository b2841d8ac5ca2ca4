import Verif.MsgLoop.Bound
/-! The ranking functions decrease. -/
namespace Verif.MsgLoop

/-- message number `j` of the posts is in the queue -/
def MWait (j : Nat) (s : St) : Prop := s.removed.length ≤ j ∧ j < s.removed.length + s.mq.length
/-- the loop has returned or message `j` was taken -/
def MGoal (j : Nat) (s : St) : Prop := Finished s ∨ j < s.removed.length
/-- task number `j` is in the queue -/
def TWait (j : Nat) (s : St) : Prop := s.ran.length ≤ j ∧ j < s.ran.length + s.queue.length
def TGoal (j : Nat) (s : St) : Prop := Finished s ∨ j < s.ran.length

theorem mgoal_mono {j s t} (h : Mono s t) : MGoal j s → MGoal j t :=
  fun hg => hg.imp h.fin fun hl => Nat.lt_of_lt_of_le hl h.removed
theorem tgoal_mono {j s t} (h : Mono s t) : TGoal j s → TGoal j t :=
  fun hg => hg.imp h.fin fun hl => Nat.lt_of_lt_of_le hl h.ran

theorem take_fields (s : St) (m rest) : (s.take m rest).removed.length = s.removed.length + 1 ∧ (s.take m rest).mq = rest ∧
    (s.take m rest).queue = s.queue ∧ (s.take m rest).ran = s.ran ∧ (s.take m rest).intr = s.intr := by
  cases m <;> simp [St.take]

theorem take_pc' {s : St} {m rest} : Finished (s.take m rest) ∨ (s.take m rest).pc = s.pc := by
  rcases take_pc (s := s) (m := m) (rest := rest) with h | ⟨w, h⟩
  · exact .inr h
  · exact .inl ⟨_, h⟩

theorem post_fields (s : St) (t) : (s.post t).pc = s.pc ∧ (s.post t).removed = s.removed ∧ s.mq.length ≤ (s.post t).mq.length ∧
    (s.post t).mq.length ≤ s.mq.length + 1 ∧
    (s.post t).queue = s.queue ++ [t] ∧ (s.post t).pending = s.pending ∧ (s.post t).processed = s.processed ∧ (s.post t).sig = s.sig ∧
    (s.post t).ran = s.ran ∧ (s.post t).intr = s.intr := by
  unfold St.post
  dsimp only
  split <;> simp [St.arrive]

theorem run_fields {s : St} (hq : s.queue ≠ []) : s.runTask.pc = s.pc ∧ s.runTask.removed = s.removed ∧ s.runTask.mq = s.mq ∧
    s.runTask.queue.length + 1 = s.queue.length ∧ s.runTask.pending = s.pending - 1 ∧ s.runTask.processed = s.processed + 1 ∧
    s.runTask.sig = s.sig ∧ s.runTask.ran.length = s.ran.length + 1 ∧ s.runTask.intr = s.intr := by
  unfold St.runTask
  split
  · contradiction
  · rename_i h; simp [h]

theorem queue_ne {s : St} (hI : Inv s) (hp : s.pending ≠ 0) : s.queue ≠ [] := by
  intro h
  have := hI.pend
  rw [h] at this
  simp at this
  exact hp this

/-- runner steps before message `j` is taken, UI loop -/
def uiRank (j : Nat) (s : St) : Nat :=
  match s.pc with
  | .peek => (j - s.removed.length) + 1
  | .sleep => (j - s.removed.length) + 2
  | .dec => s.pending + (j - s.removed.length) + 3
  | .load => s.queue.length + (j - s.removed.length) + 4
  | .mpeek => 1
  | .done _ => 1

theorem uiRank_pos (j s) : 0 < uiRank j s := by unfold uiRank; split <;> omega

theorem ui_rank_runner {E w j} {s t : St} (hI : Inv s) (hW : MWait j s) (hs : uiStep E w s = some t) :
    MGoal j t ∨ (MWait j t ∧ uiRank j t + 1 ≤ uiRank j s ∧ (s.pc ≠ .load → t.pc ≠ .load)) := by
  obtain ⟨hw1, hw2⟩ := hW
  unfold uiStep at hs
  split at hs
  · rename_i hpc
    split at hs
    · injection hs with hs; subst hs
      exact .inl (.inl ⟨_, rfl⟩)
    · split at hs
      · rename_i hm
        rw [hm] at hw2; simp at hw2; omega
      · rename_i m rest hm
        injection hs with hs; subst hs
        rw [hm] at hw2; simp at hw2
        obtain ⟨h1, h2, -⟩ := take_fields s m rest
        rcases take_pc' (s := s) (m := m) (rest := rest) with hf | hp
        · exact .inl (.inl hf)
        · by_cases hj : j < s.removed.length + 1
          · exact .inl (.inr (by rw [h1]; exact hj))
          · refine .inr ⟨⟨by rw [h1]; omega, by rw [h1, h2]; omega⟩, ?_, by rw [hp]; exact id⟩
            unfold uiRank
            rw [hp, hpc, h1]
            dsimp only
            omega
  · rename_i hpc
    injection hs with hs; subst hs
    refine .inr ⟨⟨hw1, hw2⟩, ?_, by simp⟩
    have := hI.cnt
    unfold uiRank
    rw [hpc]
    dsimp only
    omega
  · rename_i hpc
    split at hs
    · injection hs with hs; subst hs
      exact .inl (.inl ⟨_, rfl⟩)
    · split at hs
      · rename_i hp
        split at hs
        · injection hs with hs; subst hs
          refine .inr ⟨⟨hw1, hw2⟩, ?_, by simp⟩
          unfold uiRank
          rw [hpc]
          dsimp only
          omega
        · dsimp only at hs
          split at hs
          · injection hs with hs; subst hs
            refine .inr ⟨⟨hw1, hw2⟩, ?_, by simp⟩
            unfold uiRank
            rw [hpc]
            dsimp only
            omega
          · injection hs with hs; subst hs
            refine .inr ⟨⟨hw1, hw2⟩, ?_, by simp⟩
            unfold uiRank
            rw [hpc]
            dsimp only
            omega
      · rename_i hp
        injection hs with hs; subst hs
        obtain ⟨h1, h2, h3, h4, h5, -⟩ := run_fields (queue_ne hI hp)
        refine .inr ⟨⟨by rw [h2]; exact hw1, by rw [h2, h3]; exact hw2⟩, ?_, by rw [h1]; exact id⟩
        unfold uiRank
        rw [h1, hpc, h2, h5]
        dsimp only
        omega
  · rename_i hpc
    injection hs with hs; subst hs
    obtain ⟨h1, h2, h3, h4, h5, h6, h7, -⟩ := serve_fields { s with pc := .peek, fresh := freshAfter E w s } w
    refine .inr ⟨⟨by rw [h4]; exact hw1, by rw [h4, h6]; exact hw2⟩, ?_, by rw [h7]; simp⟩
    unfold uiRank
    rw [h7, h4, hpc]
    dsimp only
    omega
  · exact absurd hs (by simp)
  · exact absurd hs (by simp)

/-- steps of others: only a task posted at `load` makes the wait longer -/
theorem ui_rank_step {E l j} {s t : St} (hI : Inv s) (hW : MWait j s) (hs : Step false E l s t) :
    MGoal j t ∨ (MWait j t ∧ uiRank j t + l.isRunner ≤ uiRank j s + (if s.pc = .load ∧ l = .task then 1 else 0) ∧
      (s.pc ≠ .load → t.pc ≠ .load)) := by
  cases hs with
  | runner _ w _ hw hl =>
    rcases ui_rank_runner hI hW hl with h | ⟨h1, h2, h3⟩
    · exact .inl h
    · exact .inr ⟨h1, by simp only [Lab.isRunner]; omega, h3⟩
  | msg _ m =>
    refine .inr ⟨⟨hW.1, ?_⟩, Nat.le_add_right _ _, id⟩
    have := hW.2
    simp [St.arrive]; omega
  | task _ a =>
    obtain ⟨h1, h2, h3, h3', h4, h5, -⟩ := post_fields s a
    refine .inr ⟨⟨by rw [h2]; exact hW.1, by have := hW.2; rw [h2]; omega⟩, ?_, by rw [h1]; exact id⟩
    unfold uiRank Lab.isRunner
    rw [h1, h2, h4, h5]
    cases s.pc <;> simp
    omega
  | signal => exact .inr ⟨hW, Nat.le_add_right _ _, id⟩
  | intr => exact .inr ⟨hW, Nat.le_add_right _ _, id⟩
  | unshare => exact .inr ⟨hW, Nat.le_add_right _ _, id⟩
  | look => exact .inr ⟨hW, Nat.le_add_right _ _, id⟩

/-- a finished batch that is not yet subtracted -/
def batch : Nat → Nat
  | 0 => 0
  | _ + 1 => 1
theorem batch_le (n) : batch n ≤ 1 := by cases n <;> simp [batch]
theorem batch_pos {n} (h : n ≠ 0) : batch n = 1 := by cases n <;> simp_all [batch]
theorem batch_zero : batch 0 = 0 := rfl

/-- runner steps before message `j` is taken, background loop -/
def bgRank (j : Nat) (s : St) : Nat :=
  match s.pc with
  | .mpeek => (j - s.removed.length) + 1
  | .sleep => 3 * s.sig + 2 * s.queue.length + batch s.processed + (j - s.removed.length) + 2
  | .dec => 3 * s.sig + 2 * s.queue.length + batch s.processed + (j - s.removed.length) + 3
  | .load => 3 * s.sig + 2 * s.queue.length + batch s.processed + (j - s.removed.length) + 4
  | .peek => 1
  | .done _ => 1

theorem bgRank_pos (j s) : 0 < bgRank j s := by unfold bgRank; split <;> omega

/-- what makes messages wait in the background loop: a task, a signalled handle, a wait that ends for neither a handle nor input -/
def bgDisturb (pc : PC) : Lab → Nat
  | .task => 3
  | .signal => 3
  | .runner .other => if pc = .sleep then 3 else 0
  | _ => 0

theorem bg_rank_runner {E w j} {s t : St} (hI : Inv s) (hW : MWait j s) (hw : s.pc = .sleep → canWake s w) (hs : bgStep E w s = some t) :
    MGoal j t ∨ (MWait j t ∧ bgRank j t + 1 ≤ bgRank j s + bgDisturb s.pc (.runner w)) := by
  obtain ⟨hw1, hw2⟩ := hW
  unfold bgStep at hs
  split at hs
  · exact absurd hs (by simp)
  · rename_i hpc
    injection hs with hs; subst hs
    refine .inr ⟨⟨hw1, hw2⟩, ?_⟩
    unfold bgRank
    rw [hpc]
    dsimp only
    omega
  · rename_i hpc
    split at hs
    · split at hs
      · rename_i hp
        injection hs with hs; subst hs
        refine .inr ⟨⟨hw1, hw2⟩, ?_⟩
        unfold bgRank
        rw [hpc]
        dsimp only
        omega
      · rename_i hp
        dsimp only at hs
        split at hs
        · injection hs with hs; subst hs
          refine .inr ⟨⟨hw1, hw2⟩, ?_⟩
          unfold bgRank
          rw [hpc]
          simp only [batch_pos hp, batch_zero]
          omega
        · injection hs with hs; subst hs
          refine .inr ⟨⟨hw1, hw2⟩, ?_⟩
          unfold bgRank
          rw [hpc]
          simp only [batch_pos hp, batch_zero]
          omega
    · rename_i hp
      split at hs
      · injection hs with hs; subst hs
        exact .inl (.inl ⟨_, rfl⟩)
      · injection hs with hs; subst hs
        obtain ⟨h1, h2, h3, h4, h5, h6, h7, -⟩ := run_fields (queue_ne hI hp)
        refine .inr ⟨⟨by rw [h2]; exact hw1, by rw [h2, h3]; exact hw2⟩, ?_⟩
        unfold bgRank
        rw [h1, hpc, h2, h6, h7]
        have := batch_le (s.processed + 1)
        dsimp only
        omega
  · rename_i hpc
    have hc := hw hpc
    split at hs
    · injection hs with hs; subst hs
      refine .inr ⟨⟨hw1, hw2⟩, ?_⟩
      unfold bgRank
      rw [hpc]
      dsimp only
      omega
    · rename_i hne
      injection hs with hs; subst hs
      cases w with
      | input => exact absurd rfl hne
      | handle =>
        have hc : 0 < s.sig := hc
        refine .inr ⟨⟨hw1, hw2⟩, ?_⟩
        unfold bgRank
        rw [hpc]
        simp only [St.serve]
        omega
      | other =>
        refine .inr ⟨⟨hw1, hw2⟩, ?_⟩
        unfold bgRank bgDisturb
        rw [hpc]
        simp only [St.serve, if_true]
        omega
  · rename_i hpc
    split at hs
    · injection hs with hs; subst hs
      exact .inl (.inl ⟨_, rfl⟩)
    · split at hs
      · rename_i hm
        rw [hm] at hw2; simp at hw2; omega
      · rename_i m rest hm
        injection hs with hs; subst hs
        rw [hm] at hw2; simp at hw2
        obtain ⟨h1, h2, -⟩ := take_fields s m rest
        rcases take_pc' (s := s) (m := m) (rest := rest) with hf | hp
        · exact .inl (.inl hf)
        · by_cases hj : j < s.removed.length + 1
          · exact .inl (.inr (by rw [h1]; exact hj))
          · refine .inr ⟨⟨by rw [h1]; omega, by rw [h1, h2]; omega⟩, ?_⟩
            unfold bgRank
            rw [hp, hpc, h1]
            dsimp only
            omega
  · exact absurd hs (by simp)

theorem bg_rank_step {E l j} {s t : St} (hI : Inv s) (hW : MWait j s) (hs : Step true E l s t) :
    MGoal j t ∨ (MWait j t ∧ bgRank j t + l.isRunner ≤ bgRank j s + bgDisturb s.pc l) := by
  cases hs with
  | runner _ w _ hw hl => exact bg_rank_runner hI hW hw hl
  | msg _ m =>
    refine .inr ⟨⟨hW.1, ?_⟩, Nat.le_add_right _ _⟩
    have := hW.2
    simp [St.arrive]; omega
  | task _ a =>
    obtain ⟨h1, h2, h3, h3', h4, h5, h6, h7, -⟩ := post_fields s a
    refine .inr ⟨⟨by rw [h2]; exact hW.1, by have := hW.2; rw [h2]; omega⟩, ?_⟩
    unfold bgRank Lab.isRunner bgDisturb
    rw [h1, h2, h4, h6, h7]
    cases s.pc <;> simp only [List.length_append, List.length_singleton] <;> omega
  | signal =>
    refine .inr ⟨hW, ?_⟩
    unfold bgRank Lab.isRunner bgDisturb
    dsimp only
    split <;> omega
  | intr => exact .inr ⟨hW, Nat.le_add_right _ _⟩
  | unshare => exact .inr ⟨hW, Nat.le_add_right _ _⟩
  | look => exact .inr ⟨hW, Nat.le_add_right _ _⟩

/-- runner steps before task `j` runs, UI loop -/
def uiTaskRank (j : Nat) (s : St) : Nat :=
  match s.pc with
  | .peek => s.mq.length + (j - s.ran.length) + 3
  | .load => (j - s.ran.length) + 2
  | .dec => if j - s.ran.length < s.pending then (j - s.ran.length) + 1 else s.mq.length + (j - s.ran.length) + 5
  | .sleep => s.mq.length + (j - s.ran.length) + 4
  | .mpeek => 1
  | .done _ => 1

theorem uiTaskRank_pos (j s) : 0 < uiTaskRank j s := by unfold uiTaskRank; split <;> (try split) <;> omega

/-- what makes tasks wait in the UI loop: messages; posting a task may bring one, `WM_APP` -/
def uiDisturb (_ : PC) : Lab → Nat
  | .msg => 1
  | .task => 1
  | _ => 0

theorem ui_task_runner {E w j} {s t : St} (hI : Inv s) (hW : TWait j s) (hs : uiStep E w s = some t) :
    TGoal j t ∨ (TWait j t ∧ uiTaskRank j t + 1 ≤ uiTaskRank j s) := by
  obtain ⟨hw1, hw2⟩ := hW
  have hcnt := hI.cnt
  unfold uiStep at hs
  split at hs
  · rename_i hpc
    split at hs
    · injection hs with hs; subst hs
      exact .inl (.inl ⟨_, rfl⟩)
    · split at hs
      · rename_i hm
        injection hs with hs; subst hs
        refine .inr ⟨⟨hw1, hw2⟩, ?_⟩
        unfold uiTaskRank
        rw [hpc]
        dsimp only
        omega
      · rename_i m rest hm
        injection hs with hs; subst hs
        obtain ⟨h1, h2, h3, h4, -⟩ := take_fields s m rest
        rcases take_pc' (s := s) (m := m) (rest := rest) with hf | hp
        · exact .inl (.inl hf)
        · refine .inr ⟨⟨by rw [h4]; exact hw1, by rw [h3, h4]; exact hw2⟩, ?_⟩
          unfold uiTaskRank
          rw [hp, hpc, h2, h4, hm]
          simp only [List.length_cons]
          omega
  · rename_i hpc
    injection hs with hs; subst hs
    refine .inr ⟨⟨hw1, hw2⟩, ?_⟩
    unfold uiTaskRank
    rw [hpc]
    dsimp only
    rw [if_pos (by omega)]
    omega
  · rename_i hpc
    split at hs
    · injection hs with hs; subst hs
      exact .inl (.inl ⟨_, rfl⟩)
    · split at hs
      · rename_i hp
        split at hs
        · injection hs with hs; subst hs
          refine .inr ⟨⟨hw1, hw2⟩, ?_⟩
          unfold uiTaskRank
          rw [hpc]
          dsimp only
          rw [if_neg (by omega)]
          omega
        · dsimp only at hs
          split at hs
          · injection hs with hs; subst hs
            refine .inr ⟨⟨hw1, hw2⟩, ?_⟩
            unfold uiTaskRank
            rw [hpc]
            dsimp only
            rw [if_neg (by omega)]
            omega
          · injection hs with hs; subst hs
            refine .inr ⟨⟨hw1, hw2⟩, ?_⟩
            unfold uiTaskRank
            rw [hpc]
            dsimp only
            rw [if_neg (by omega)]
            omega
      · rename_i hp
        injection hs with hs; subst hs
        obtain ⟨h1, h2, h3, h4, h5, h6, h7, h8, -⟩ := run_fields (queue_ne hI hp)
        by_cases hj : j < s.ran.length + 1
        · exact .inl (.inr (by rw [h8]; exact hj))
        · refine .inr ⟨⟨by rw [h8]; omega, by rw [h8]; omega⟩, ?_⟩
          unfold uiTaskRank
          rw [h1, hpc, h3, h5, h8]
          dsimp only
          split <;> split <;> omega
  · rename_i hpc
    injection hs with hs; subst hs
    obtain ⟨h1, h2, h3, h4, h5, h6, h7, -⟩ := serve_fields { s with pc := .peek, fresh := freshAfter E w s } w
    refine .inr ⟨⟨by rw [h2]; exact hw1, by rw [h2, h3]; exact hw2⟩, ?_⟩
    unfold uiTaskRank
    rw [h7, h2, h6, hpc]
    dsimp only
    omega
  · exact absurd hs (by simp)
  · exact absurd hs (by simp)

theorem ui_task_step {E l j} {s t : St} (hI : Inv s) (hW : TWait j s) (hs : Step false E l s t) :
    TGoal j t ∨ (TWait j t ∧ uiTaskRank j t + l.isRunner ≤ uiTaskRank j s + uiDisturb s.pc l) := by
  cases hs with
  | runner _ w _ hw hl =>
    rcases ui_task_runner hI hW hl with h | ⟨h1, h2⟩
    · exact .inl h
    · exact .inr ⟨h1, by simp only [Lab.isRunner]; omega⟩
  | msg _ m =>
    refine .inr ⟨hW, ?_⟩
    unfold uiTaskRank Lab.isRunner uiDisturb
    simp only [St.arrive, List.length_append, List.length_singleton]
    split <;> (try split) <;> omega
  | task _ a =>
    obtain ⟨h1, h2, h3, h3', h4, h5, h6, h7, h8, -⟩ := post_fields s a
    refine .inr ⟨⟨by rw [h8]; exact hW.1, by have := hW.2; rw [h8, h4]; simp; omega⟩, ?_⟩
    unfold uiTaskRank Lab.isRunner uiDisturb
    rw [h1, h5, h8]
    cases s.pc <;> dsimp only <;> (try split) <;> omega
  | signal => exact .inr ⟨hW, Nat.le_add_right _ _⟩
  | intr => exact .inr ⟨hW, Nat.le_add_right _ _⟩
  | unshare => exact .inr ⟨hW, Nat.le_add_right _ _⟩
  | look => exact .inr ⟨hW, Nat.le_add_right _ _⟩

/-- the background loop is between tasks of a batch, or has just finished one -/
def Busy (s : St) : Prop := s.pc = .dec ∧ (s.pending ≠ 0 ∨ s.processed ≠ 0)

/-- runner steps before task `j` runs, background loop in a batch -/
def bgTaskRank (j : Nat) (s : St) : Nat :=
  if j - s.ran.length < s.pending then (j - s.ran.length) + 1 else (j - s.ran.length) + 2

theorem bg_task_runner {E w j} {s t : St} (hI : Inv s) (hB : Busy s) (hW : TWait j s) (hs : bgStep E w s = some t) :
    TGoal j t ∨ ((Busy t ∧ TWait j t) ∧ bgTaskRank j t + 1 ≤ bgTaskRank j s) := by
  obtain ⟨hw1, hw2⟩ := hW
  obtain ⟨hpc, hb⟩ := hB
  have hcnt := hI.cnt
  unfold bgStep at hs
  rw [hpc] at hs
  dsimp only at hs
  split at hs
  · rename_i hp
    have hpr : s.processed ≠ 0 := hb.resolve_left (by simp [hp])
    rw [if_neg hpr, if_neg (by omega)] at hs
    injection hs with hs; subst hs
    refine .inr ⟨⟨⟨rfl, .inl ?_⟩, hw1, hw2⟩, ?_⟩
    · dsimp only; omega
    · unfold bgTaskRank
      dsimp only
      rw [if_pos (by omega), if_neg (by omega)]
      omega
  · rename_i hp
    split at hs
    · injection hs with hs; subst hs
      exact .inl (.inl ⟨_, rfl⟩)
    · injection hs with hs; subst hs
      obtain ⟨h1, h2, h3, h4, h5, h6, h7, h8, -⟩ := run_fields (queue_ne hI hp)
      by_cases hj : j < s.ran.length + 1
      · exact .inl (.inr (by rw [h8]; exact hj))
      · refine .inr ⟨⟨⟨by rw [h1, hpc], .inr (by rw [h6]; omega)⟩, by rw [h8]; omega, by rw [h8]; omega⟩, ?_⟩
        unfold bgTaskRank
        rw [h5, h8]
        split <;> split <;> omega

theorem bg_task_step {E l j} {s t : St} (hI : Inv s) (hW : Busy s ∧ TWait j s) (hs : Step true E l s t) :
    TGoal j t ∨ ((Busy t ∧ TWait j t) ∧ bgTaskRank j t + l.isRunner ≤ bgTaskRank j s + 0) := by
  obtain ⟨hB, hW⟩ := hW
  cases hs with
  | runner _ w _ hw hl => exact bg_task_runner hI hB hW hl
  | msg _ m => exact .inr ⟨⟨hB, hW⟩, Nat.le_refl _⟩
  | task _ a =>
    obtain ⟨h1, h2, h3, h3', h4, h5, h6, h7, h8, -⟩ := post_fields s a
    refine .inr ⟨⟨⟨by rw [h1]; exact hB.1, by rw [h5, h6]; exact hB.2⟩, by rw [h8]; exact hW.1,
      by have := hW.2; rw [h8, h4]; simp; omega⟩, ?_⟩
    unfold bgTaskRank Lab.isRunner
    rw [h5, h8]
    exact Nat.le_refl _
  | signal => exact .inr ⟨⟨hB, hW⟩, Nat.le_refl _⟩
  | intr => exact .inr ⟨⟨hB, hW⟩, Nat.le_refl _⟩
  | unshare => exact .inr ⟨⟨hB, hW⟩, Nat.le_refl _⟩
  | look => exact .inr ⟨⟨hB, hW⟩, Nat.le_refl _⟩

theorem bg_timer_step {E l m} {s t : St} (hI : Inv s) (hW : s.pc = .dec ∧ s.timed = m) (hs : Step true E l s t) :
    (Finished t ∨ m < t.timed) ∨ ((t.pc = .dec ∧ t.timed = m) ∧ (t.pending + 1) + l.isRunner ≤ (s.pending + 1) + 0) := by
  obtain ⟨hpc, ht⟩ := hW
  cases hs with
  | runner _ w _ hw hl =>
    replace hl : bgStep E w s = some t := hl
    unfold bgStep at hl
    rw [hpc] at hl
    dsimp only at hl
    split at hl
    · split at hl
      · injection hl with hl; subst hl
        exact .inl (.inr (by simp [ht]))
      · split at hl <;> (injection hl with hl; subst hl; exact .inl (.inr (by simp [ht])))
    · rename_i hp
      split at hl
      · injection hl with hl; subst hl
        exact .inl (.inl ⟨_, rfl⟩)
      · injection hl with hl; subst hl
        obtain ⟨h1, h2, h3, h4, h5, -⟩ := run_fields (queue_ne hI hp)
        refine .inr ⟨⟨by rw [h1, hpc], ?_⟩, ?_⟩
        · unfold St.runTask
          split <;> exact ht
        · rw [h5]
          simp only [Lab.isRunner]
          omega
  | msg _ m => exact .inr ⟨⟨hpc, ht⟩, Nat.le_refl _⟩
  | task _ a =>
    obtain ⟨h1, h2, h3, h3', h4, h5, -⟩ := post_fields s a
    refine .inr ⟨⟨by rw [h1, hpc], ?_⟩, by rw [h5]; exact Nat.le_refl _⟩
    unfold St.post
    dsimp only
    split <;> exact ht
  | signal => exact .inr ⟨⟨hpc, ht⟩, Nat.le_refl _⟩
  | intr => exact .inr ⟨⟨hpc, ht⟩, Nat.le_refl _⟩
  | unshare => exact .inr ⟨⟨hpc, ht⟩, Nat.le_refl _⟩
  | look => exact .inr ⟨⟨hpc, ht⟩, Nat.le_refl _⟩

/-- runner steps before an interrupted UI loop returns -/
def uiIntrRank (s : St) : Nat :=
  match s.pc with
  | .peek => s.mq.length + 3
  | .load => 2
  | .dec => 1
  | .sleep => s.mq.length + 4
  | .mpeek => 1
  | .done _ => 1

theorem uiIntrRank_pos (s) : 0 < uiIntrRank s := by unfold uiIntrRank; split <;> omega

theorem ui_intr_step {E l} {s t : St} (hi : s.intr = true) (hs : Step false E l s t) :
    Finished t ∨ (t.intr = true ∧ uiIntrRank t + l.isRunner ≤ uiIntrRank s + uiDisturb s.pc l) := by
  have hm := (mono_step hs).intr hi
  cases hs with
  | runner _ w _ hw hl =>
    replace hl : uiStep E w s = some t := hl
    unfold uiStep at hl
    split at hl
    · rename_i hpc
      split at hl
      · injection hl with hl; subst hl
        exact .inl ⟨_, rfl⟩
      · split at hl
        · injection hl with hl; subst hl
          refine .inr ⟨hm, ?_⟩
          unfold uiIntrRank Lab.isRunner
          rw [hpc]
          dsimp only
          omega
        · rename_i m rest hq
          injection hl with hl; subst hl
          obtain ⟨h1, h2, -⟩ := take_fields s m rest
          rcases take_pc' (s := s) (m := m) (rest := rest) with hf | hp
          · exact .inl hf
          · refine .inr ⟨hm, ?_⟩
            unfold uiIntrRank Lab.isRunner
            rw [hp, hpc, h2, hq]
            simp only [List.length_cons]
            omega
    · rename_i hpc
      injection hl with hl; subst hl
      refine .inr ⟨hm, ?_⟩
      unfold uiIntrRank Lab.isRunner
      rw [hpc]
      dsimp only
      omega
    · rw [if_pos (.inr hi)] at hl
      injection hl with hl; subst hl
      exact .inl ⟨_, rfl⟩
    · rename_i hpc
      injection hl with hl; subst hl
      obtain ⟨h1, h2, h3, h4, h5, h6, h7, -⟩ := serve_fields { s with pc := .peek, fresh := freshAfter E w s } w
      refine .inr ⟨hm, ?_⟩
      unfold uiIntrRank Lab.isRunner
      rw [h7, h6, hpc]
      dsimp only
      omega
    · exact absurd hl (by simp)
    · exact absurd hl (by simp)
  | msg _ m =>
    refine .inr ⟨hm, ?_⟩
    unfold uiIntrRank Lab.isRunner uiDisturb
    simp only [St.arrive, List.length_append, List.length_singleton]
    split <;> omega
  | task _ a =>
    obtain ⟨h1, h2, h3, h3', -⟩ := post_fields s a
    refine .inr ⟨hm, ?_⟩
    unfold uiIntrRank Lab.isRunner uiDisturb
    rw [h1]
    cases s.pc <;> dsimp only <;> omega
  | signal => exact .inr ⟨hm, Nat.le_add_right _ _⟩
  | intr => exact .inr ⟨hm, Nat.le_add_right _ _⟩
  | unshare => exact .inr ⟨hm, Nat.le_add_right _ _⟩
  | look => exact .inr ⟨hm, Nat.le_add_right _ _⟩

end Verif.MsgLoop
