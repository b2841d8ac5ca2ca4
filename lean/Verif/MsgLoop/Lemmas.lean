import Verif.MsgLoop.Model
/-! Invariants of the two loops. -/
namespace Verif.MsgLoop

/-- bookkeeping kept by every step -/
structure Inv (s : St) : Prop where
  cnt : s.cnt = s.processed + s.queue.length
  pend : s.pending ≤ s.queue.length
  hist : s.posted = s.removed ++ s.mq
  quiet : (∀ r, s.pc ≠ .done (.quit r)) → ∀ w, Msg.quit w ∉ s.removed
  last : ∀ w, s.pc = .done (.quit w) → ∃ l, s.removed = l ++ [.quit w] ∧ ∀ v, Msg.quit v ∉ l
  canc : s.pc = .done .cancelled → s.shared = false ∨ s.intr = true

theorem inv_start (bg) : Inv (start bg) := by
  constructor <;> cases bg <;> simp [start]

theorem inv_arrive {s : St} (h : Inv s) (m : Msg) : Inv (s.arrive m) := by
  refine ⟨h.cnt, h.pend, ?_, h.quiet, h.last, h.canc⟩
  simp [St.arrive, h.hist]

theorem inv_post {s : St} (h : Inv s) (t : Nat) : Inv (s.post t) := by
  have h' : Inv { s with queue := s.queue ++ [t], cnt := s.cnt + 1 } := by
    refine ⟨?_, ?_, h.hist, h.quiet, h.last, h.canc⟩
    · have := h.cnt; simp; omega
    · have := h.pend; simp; omega
  unfold St.post
  dsimp only
  split
  · exact inv_arrive h' _
  · exact h'

theorem inv_pc {s : St} (h : Inv s) (p : PC) (hq : ∀ r, s.pc ≠ .done r) (hp : ∀ r, p ≠ .done r) (f : Bool) {t : Nat} : Inv { s with pc := p, fresh := f, timed := t } :=
  ⟨h.cnt, h.pend, h.hist, fun _ => h.quiet fun r => hq _, fun w hw => absurd hw (hp _), fun hw => absurd hw (hp _)⟩

theorem inv_canc {s : St} (h : Inv s) (hq : ∀ r, s.pc ≠ .done r) (hc : s.shared = false ∨ s.intr = true) : Inv { s with pc := .done .cancelled } :=
  ⟨h.cnt, h.pend, h.hist, fun _ => h.quiet fun r => hq _, fun w hw => (by simp at hw), fun _ => hc⟩

theorem inv_take {s : St} (h : Inv s) (hq : ∀ r, s.pc ≠ .done r) {m rest} (hm : s.mq = m :: rest) : Inv (s.take m rest) := by
  have hh := h.hist
  rw [hm] at hh
  have hqu := h.quiet fun r => hq _
  cases m with
  | quit w =>
    refine ⟨h.cnt, h.pend, by simp [St.take, hh], fun hr => absurd rfl (hr w), ?_, fun hw => ?_⟩
    · intro v hv
      simp only [St.take, PC.done.injEq, Res.quit.injEq] at hv
      subst hv
      exact ⟨s.removed, rfl, hqu⟩
    · simp [St.take] at hw
  | app =>
    refine ⟨h.cnt, h.pend, by simp [St.take, hh], fun _ w => ?_, fun w hw => absurd hw (hq _), fun hw => absurd hw (hq _)⟩
    simpa [St.take] using hqu w
  | user n =>
    refine ⟨h.cnt, h.pend, by simp [St.take, hh], fun _ w => ?_, fun w hw => absurd hw (hq _), fun hw => absurd hw (hq _)⟩
    simpa [St.take] using hqu w

theorem inv_run {s : St} (h : Inv s) (hp : s.pending ≠ 0) : Inv s.runTask := by
  have h1 := h.cnt
  have h2 := h.pend
  unfold St.runTask
  split
  · exact h
  · rename_i t q hq
    rw [hq] at h1 h2
    refine ⟨?_, ?_, h.hist, h.quiet, h.last, h.canc⟩
    · simp at h1 ⊢; omega
    · simp at h2 ⊢; omega

theorem inv_load {s : St} (h : Inv s) (hq : ∀ r, s.pc ≠ .done r) : Inv { s with pc := .dec, pending := s.cnt - s.processed } := by
  have h1 := h.cnt
  refine ⟨h.cnt, ?_, h.hist, fun _ => h.quiet fun r => hq _, fun w hw => (by simp at hw), fun hw => (by simp at hw)⟩
  simp; omega

theorem inv_sub {s : St} (h : Inv s) (hq : ∀ r, s.pc ≠ .done r) (p : PC) (hp : ∀ r, p ≠ .done r) {t : Nat} :
    Inv { s with cnt := s.cnt - s.processed, processed := 0, pending := s.cnt - s.processed, pc := p, timed := t } := by
  have h1 := h.cnt
  refine ⟨?_, ?_, h.hist, fun _ => h.quiet fun r => hq _, fun w hw => absurd hw (hp _), fun hw => absurd hw (hp _)⟩
  · simp; omega
  · simp; omega

theorem inv_serve {s : St} (h : Inv s) (w : Wake) : Inv (s.serve w) := by
  cases w
  · exact h
  · exact ⟨h.cnt, h.pend, h.hist, h.quiet, h.last, h.canc⟩
  · exact h

theorem inv_ui {E w} {s s' : St} (h : Inv s) (hs : uiStep E w s = some s') : Inv s' := by
  unfold uiStep at hs
  split at hs
  · rename_i hpc
    have hq : ∀ r, s.pc ≠ .done r := by simp [hpc]
    split at hs
    · rename_i hsh
      injection hs with hs; subst hs
      exact inv_canc h hq (.inl hsh)
    · split at hs
      · injection hs with hs; subst hs
        exact inv_pc h .load hq (by simp) false
      · rename_i m rest hm
        injection hs with hs; subst hs
        exact inv_take h hq hm
  · rename_i hpc
    injection hs with hs; subst hs
    exact inv_load h (by simp [hpc])
  · rename_i hpc
    have hq : ∀ r, s.pc ≠ .done r := by simp [hpc]
    split at hs
    · rename_i hc
      injection hs with hs; subst hs
      exact inv_canc h hq hc
    · split at hs
      · split at hs
        · injection hs with hs; subst hs
          exact inv_pc h .sleep hq (by simp) s.fresh
        · dsimp only at hs
          split at hs
          · injection hs with hs; subst hs
            exact inv_sub h hq .sleep (by simp)
          · injection hs with hs; subst hs
            exact inv_sub h hq .peek (by simp)
      · rename_i hp
        injection hs with hs; subst hs
        exact inv_run h hp
  · rename_i hpc
    injection hs with hs; subst hs
    exact inv_serve (inv_pc h .peek (by simp [hpc]) (by simp) _) w
  · exact absurd hs (by simp)
  · exact absurd hs (by simp)

theorem inv_bg {E w} {s s' : St} (h : Inv s) (hs : bgStep E w s = some s') : Inv s' := by
  unfold bgStep at hs
  split at hs
  · exact absurd hs (by simp)
  · rename_i hpc
    injection hs with hs; subst hs
    exact inv_load h (by simp [hpc])
  · rename_i hpc
    have hq : ∀ r, s.pc ≠ .done r := by simp [hpc]
    split at hs
    · split at hs
      · injection hs with hs; subst hs
        exact inv_pc h .sleep hq (by simp) s.fresh
      · dsimp only at hs
        split at hs
        · injection hs with hs; subst hs
          exact inv_sub h hq .sleep (by simp)
        · injection hs with hs; subst hs
          have := inv_sub h hq .dec (by simp) (t := s.timed + 1)
          rw [← hpc] at this
          exact this
    · rename_i hp
      split at hs
      · rename_i hc
        injection hs with hs; subst hs
        exact inv_canc h hq hc
      · injection hs with hs; subst hs
        exact inv_run h hp
  · rename_i hpc
    have hq : ∀ r, s.pc ≠ .done r := by simp [hpc]
    split at hs
    · injection hs with hs; subst hs
      exact inv_pc h .mpeek hq (by simp) _
    · injection hs with hs; subst hs
      exact inv_serve (inv_pc h .load hq (by simp) _) _
  · rename_i hpc
    have hq : ∀ r, s.pc ≠ .done r := by simp [hpc]
    split at hs
    · rename_i hc
      injection hs with hs; subst hs
      exact inv_canc h hq hc
    · split at hs
      · injection hs with hs; subst hs
        exact inv_pc h .load hq (by simp) false
      · rename_i m rest hm
        injection hs with hs; subst hs
        exact inv_take h hq hm
  · exact absurd hs (by simp)

theorem inv_step {bg E l} {s s' : St} (h : Inv s) (hs : Step bg E l s s') : Inv s' := by
  cases hs with
  | runner _ w s' hw hl =>
    cases bg
    · exact inv_ui h hl
    · exact inv_bg h hl
  | msg _ m => exact inv_arrive h m
  | task _ t => exact inv_post h t
  | signal => exact ⟨h.cnt, h.pend, h.hist, h.quiet, h.last, h.canc⟩
  | intr => exact ⟨h.cnt, h.pend, h.hist, h.quiet, h.last, fun _ => .inr rfl⟩
  | unshare => exact ⟨h.cnt, h.pend, h.hist, h.quiet, h.last, fun _ => .inl rfl⟩
  | look _ _ => exact ⟨h.cnt, h.pend, h.hist, h.quiet, h.last, h.canc⟩

theorem reach_inv {bg E} {s : St} (h : Reach bg E s) : Inv s := by
  induction h with
  | start => exact inv_start bg
  | step _ hs ih => exact inv_step ih hs

theorem run_reach {bg E d} {s u : St} {n k} (h : Run bg E d s n k u) : Reach bg E s → Reach bg E u := by
  induction h with
  | nil s => exact id
  | cons hs _ ih => exact fun hr => ih (.step hr hs)

/-- between two looks at the queue by the loop itself, unread input is new input -/
def Fresh (s : St) : Prop := (s.pc = .load ∨ s.pc = .dec ∨ s.pc = .sleep) → s.mq ≠ [] → s.fresh = true

theorem fresh_arrive {s : St} (m) : Fresh (s.arrive m) := fun _ _ => rfl

theorem fresh_post {s : St} (h : Fresh s) (t) : Fresh (s.post t) := by
  unfold St.post
  dsimp only
  split
  · exact fresh_arrive _
  · exact h

theorem fresh_run {s : St} (h : Fresh s) : Fresh s.runTask := by
  unfold St.runTask
  split
  · exact h
  · exact h

theorem take_pc {s : St} {m rest} : (s.take m rest).pc = s.pc ∨ ∃ w, (s.take m rest).pc = .done (.quit w) := by
  cases m
  · exact .inl rfl
  · exact .inr ⟨_, rfl⟩
  · exact .inl rfl

theorem fresh_ui {E w} {s s' : St} (h : Fresh s) (hs : uiStep E w s = some s') : Fresh s' := by
  unfold uiStep at hs
  split at hs
  · rename_i hpc
    split at hs
    · injection hs with hs; subst hs
      intro hp; simp at hp
    · split at hs
      · rename_i hm
        injection hs with hs; subst hs
        intro _ hn; exact absurd hm hn
      · rename_i m rest hm
        injection hs with hs; subst hs
        intro hp
        rcases take_pc (s := s) (m := m) (rest := rest) with h1 | ⟨v, h1⟩
        · rw [h1, hpc] at hp; simp at hp
        · rw [h1] at hp; simp at hp
  · rename_i hpc
    injection hs with hs; subst hs
    exact fun _ => h (.inl hpc)
  · rename_i hpc
    have hd := h (.inr (.inl hpc))
    split at hs
    · injection hs with hs; subst hs
      intro hp; simp at hp
    · split at hs
      · split at hs
        · injection hs with hs; subst hs
          exact fun _ => hd
        · dsimp only at hs
          split at hs
          · injection hs with hs; subst hs
            exact fun _ => hd
          · injection hs with hs; subst hs
            intro hp; simp at hp
      · injection hs with hs; subst hs
        exact fresh_run h
  · injection hs with hs; subst hs
    intro hp
    cases w <;> simp [St.serve] at hp
  · exact absurd hs (by simp)
  · exact absurd hs (by simp)

theorem fresh_bg {E w} (hE : E.checks = false) {s s' : St} (h : Fresh s) (hs : bgStep E w s = some s') : Fresh s' := by
  unfold bgStep at hs
  split at hs
  · exact absurd hs (by simp)
  · rename_i hpc
    injection hs with hs; subst hs
    exact fun _ => h (.inl hpc)
  · rename_i hpc
    have hd := h (.inr (.inl hpc))
    split at hs
    · split at hs
      · injection hs with hs; subst hs
        exact fun _ => hd
      · dsimp only at hs
        split at hs
        · injection hs with hs; subst hs
          exact fun _ => hd
        · injection hs with hs; subst hs
          exact fun _ => hd
    · split at hs
      · injection hs with hs; subst hs
        intro hp; simp at hp
      · injection hs with hs; subst hs
        exact fresh_run h
  · rename_i hpc
    have hd := h (.inr (.inr hpc))
    split at hs
    · injection hs with hs; subst hs
      intro hp; simp at hp
    · injection hs with hs; subst hs
      intro _ hm
      cases w <;> simp [St.serve, freshAfter, hE] at hm ⊢ <;> exact hd hm
  · rename_i hpc
    split at hs
    · injection hs with hs; subst hs
      intro hp; simp at hp
    · split at hs
      · rename_i hm
        injection hs with hs; subst hs
        intro _ hn; exact absurd hm hn
      · rename_i m rest hm
        injection hs with hs; subst hs
        intro hp
        rcases take_pc (s := s) (m := m) (rest := rest) with h1 | ⟨v, h1⟩
        · rw [h1, hpc] at hp; simp at hp
        · rw [h1] at hp; simp at hp
  · exact absurd hs (by simp)

theorem fresh_step {bg E l} (h1 : E.looks = false) (h2 : bg = true → E.checks = false) {s s' : St} (h : Fresh s) (hs : Step bg E l s s') :
    Fresh s' := by
  cases hs with
  | runner _ w s' hw hl =>
    cases bg
    · exact fresh_ui h hl
    · exact fresh_bg (h2 rfl) h hl
  | msg _ m => exact fresh_arrive m
  | task _ t => exact fresh_post h t
  | signal => exact h
  | intr => exact h
  | unshare => exact h
  | look _ hl => rw [h1] at hl; exact absurd hl (by simp)

theorem reach_fresh {bg E} (h1 : E.looks = false) (h2 : bg = true → E.checks = false) {s : St} (h : Reach bg E s) : Fresh s := by
  induction h with
  | start => intro _ hm; exact absurd rfl hm
  | step _ hs ih => exact fresh_step h1 h2 ih hs

end Verif.MsgLoop
