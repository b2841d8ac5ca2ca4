import Verif.Spsc.Props
/-!
# C32 – how much memory the queue holds
-/
namespace Verif.Spsc

/-- number of blocks allocated and not yet deleted -/
def liveBlocks (s : St) : Nat := (List.range s.nb).countP fun b => !(s.blocks b).freed

/-- Destruction of the queue.  `InterlockedQueue` (15-87) declares no destructor; the implicit one of its two raw pointers (38-39) does nothing. -/
def destroy (s : St) : St := s

structure MInv (N : Nat) (s : St) : Prop where
  full : ∀ b, b < s.top → N ≤ (s.blocks b).w
  link : ∀ e n, s.prod = .link e n → N ≤ (s.blocks s.top).w
  freed : ∀ f b, s.first = some f → b < f → (s.blocks b).freed = true ∨ s.cons = .del b
  del : ∀ f b, s.first = some f → s.cons = .del b → b + 1 = f

theorem minv_init (N : Nat) : MInv N init := by
  constructor <;> simp [init]

theorem minv_step {N : Nat} (hN : 0 < N) {g : Bool} {s s' : St} (h : Reach N g s) (m : MInv N s) (hs : Step N g s s') : MInv N s' := by
  rcases reach_inv hN h with h0 | ⟨lb, fb, i⟩
  · have e1 : s.prod = .idle := by rw [h0]; rfl
    have e2 : s.cons = .idle := by rw [h0]; rfl
    have e3 : s.first = none := by rw [h0]; rfl
    have e5 : s.nb = 0 := by rw [h0]; rfl
    cases hs with
    | startNew e hp hl =>
      refine ⟨fun b hb => by dsimp only at hb; omega, fun e n hp => by simp at hp, fun f b hf => ?_, fun f b hf => ?_⟩
      all_goals rw [show St.first { s with blocks := upd s.blocks s.nb (fresh 0), nb := s.nb + 1, last := some s.nb, prod := .setFirst e, top := s.nb } = s.first from rfl, e3] at hf
      all_goals cases hf
    | popNone hc hg hf => exact ⟨m.full, m.link, m.freed, m.del⟩
    | start e b hp hl => exact ⟨m.full, fun e n hp => by simp at hp, m.freed, m.del⟩
    | popStart b hc hg hf => rw [e3] at hf; simp at hf
    | setFirst _ hp | full _ _ hp _ _ | notFull _ _ hp _ _ | link _ _ _ hp _ | advance _ _ hp | write _ _ hp _ | bump _ _ hp _ => rw [e1] at hp; simp at hp
    | empty _ hc _ _ | nonEmpty _ hc _ _ | take _ hc _ | inc _ _ hc _ | peekNull _ hc _ _ | peekSome _ _ hc _ _ | move _ hc _ | del _ hc => rw [e2] at hc; simp at hc
  · have hpi := i.prod
    have hfl := i.fl
    have lfirst : ∀ b, s.last = some b → b = lb := by
      intro b hb; rw [i.last] at hb; simpa using hb.symm
    have ffirst : ∀ b, s.first = some b → b = fb := by
      intro b hb
      rcases i.first with hf | hf
      · rw [hf] at hb; simpa using hb.symm
      · rw [hf.1] at hb; simp at hb
    -- a step of the consumer that is not at `del` changes `freed` of no block
    have frd : s.cons = .idle ∨ (∀ b, s.cons ≠ .del b) → ∀ f b, s.first = some f → b < f → (s.blocks b).freed = true := by
      intro hc f b hf hb
      rcases m.freed f b hf hb with a | a
      · exact a
      · rcases hc with hc | hc
        · rw [hc] at a; cases a
        · exact absurd a (hc b)
    cases hs with
    | startNew e hp hl => rw [i.last] at hl; cases hl
    | setFirst e hp =>
      rw [hp] at hpi
      refine ⟨m.full, fun e n hp => by simp at hp, fun f b hf hb => ?_, fun f b hf hb => ?_⟩
      · simp only [i.last, Option.some.injEq] at hf
        have := hpi.1; have := hpi.2.2.1
        omega
      · have hci := i.cons
        dsimp only at hb
        rw [hb] at hci
        have := hci.1; have := hpi.2.2.1
        omega
    | start e b hp hl => exact ⟨m.full, fun e n hp => by simp at hp, m.freed, m.del⟩
    | full e b hp hl hfull =>
      rw [hp] at hpi
      have hb := lfirst b hl
      have hnb : s.nb ≠ s.top := by have := hpi.2; omega
      have key : ∀ c, c ≤ s.top → upd s.blocks s.nb (fresh ((s.blocks b).base + (s.blocks b).w)) c = s.blocks c := by
        intro c hc; simp only [upd]; rw [if_neg (by have := hpi.2; omega)]
      refine ⟨fun c hc => ?_, fun e n _ => ?_, fun f c hf hc => ?_, m.del⟩
      · dsimp only at hc ⊢; rw [key c (by omega)]; exact m.full c hc
      · dsimp only; rw [key _ (Nat.le_refl _)]
        have : b = s.top := by rw [hb]; exact hpi.1
        rw [this] at hfull; omega
      · dsimp only at hf ⊢
        have := ffirst f hf
        rw [key c (by omega)]; exact m.freed f c hf hc
    | notFull e b hp hl hn => exact ⟨m.full, fun e n hp => by simp at hp, m.freed, m.del⟩
    | link e n b hp hl =>
      rw [hp] at hpi
      have hb := lfirst b hl
      have hw : ∀ c, (upd s.blocks b { s.blocks b with next := some n } c).w = (s.blocks c).w ∧
          (upd s.blocks b { s.blocks b with next := some n } c).freed = (s.blocks c).freed := by
        intro c; simp only [upd]; split
        · rename_i e; subst e; exact ⟨rfl, rfl⟩
        · exact ⟨rfl, rfl⟩
      have hm := m.link e n hp
      refine ⟨fun c hc => ?_, fun e n hp => by simp at hp, fun f c hf hc => ?_, m.del⟩
      · dsimp only at hc ⊢; rw [(hw c).1]
        by_cases hlt : c < s.top
        · exact m.full c hlt
        · have : c = s.top := by have := hpi.2.1; omega
          rw [this]; exact hm
      · dsimp only at hf ⊢; rw [(hw c).2]; exact m.freed f c hf hc
    | advance e n hp => exact ⟨m.full, fun e n hp => by simp at hp, m.freed, m.del⟩
    | write e b hp hl =>
      have hw : ∀ c v, (upd s.blocks b { s.blocks b with buf := v } c).w = (s.blocks c).w ∧
          (upd s.blocks b { s.blocks b with buf := v } c).freed = (s.blocks c).freed := by
        intro c v; simp only [upd]; split
        · rename_i e; subst e; exact ⟨rfl, rfl⟩
        · exact ⟨rfl, rfl⟩
      refine ⟨fun c hc => ?_, fun e n hp => by simp at hp, fun f c hf hc => ?_, m.del⟩
      · dsimp only at hc ⊢; rw [(hw c _).1]; exact m.full c hc
      · dsimp only at hf ⊢; rw [(hw c _).2]; exact m.freed f c hf hc
    | bump e b hp hl =>
      have hw : ∀ c, (s.blocks c).w ≤ (upd s.blocks b { s.blocks b with w := (s.blocks b).w + 1 } c).w ∧
          (upd s.blocks b { s.blocks b with w := (s.blocks b).w + 1 } c).freed = (s.blocks c).freed := by
        intro c; simp only [upd]; split
        · rename_i e; subst e; exact ⟨by simp, rfl⟩
        · exact ⟨Nat.le_refl _, rfl⟩
      refine ⟨fun c hc => ?_, fun e n hp => by simp at hp, fun f c hf hc => ?_, m.del⟩
      · dsimp only at hc ⊢; exact Nat.le_trans (m.full c hc) (hw c).1
      · dsimp only at hf ⊢; rw [(hw c).2]; exact m.freed f c hf hc
    | popNone hc hg hf => exact ⟨m.full, m.link, m.freed, m.del⟩
    | popStart b hc hg hf => exact ⟨m.full, m.link, fun f c h1 h2 => .inl (frd (.inl hc) f c h1 h2), fun f c _ h2 => by simp at h2⟩
    | empty b hc hf _ => exact ⟨m.full, m.link, fun f c h1 h2 => .inl (frd (.inr fun b => by simp [hc]) f c h1 h2), fun f c _ h2 => by simp at h2⟩
    | nonEmpty b hc hf _ => exact ⟨m.full, m.link, fun f c h1 h2 => .inl (frd (.inr fun b => by simp [hc]) f c h1 h2), fun f c _ h2 => by simp at h2⟩
    | take b hc hf => exact ⟨m.full, m.link, fun f c h1 h2 => .inl (frd (.inr fun b => by simp [hc]) f c h1 h2), fun f c _ h2 => by simp at h2⟩
    | inc x b hc hf =>
      have hw : ∀ c, (upd s.blocks b { s.blocks b with r := (s.blocks b).r + 1 } c).w = (s.blocks c).w ∧
          (upd s.blocks b { s.blocks b with r := (s.blocks b).r + 1 } c).freed = (s.blocks c).freed := by
        intro c; simp only [upd]; split
        · rename_i e; subst e; exact ⟨rfl, rfl⟩
        · exact ⟨rfl, rfl⟩
      refine ⟨fun c hc => ?_, fun e n hp => ?_, fun f c h1 h2 => .inl ?_, fun f c _ h2 => by simp at h2⟩
      · dsimp only at hc ⊢; rw [(hw c).1]; exact m.full c hc
      · dsimp only at hp ⊢; rw [(hw _).1]; exact m.link e n hp
      · dsimp only at h1 ⊢; rw [(hw c).2]; exact frd (.inr fun b => by simp [hc]) f c h1 h2
    | peekNull b hc hf _ => exact ⟨m.full, m.link, fun f c h1 h2 => .inl (frd (.inr fun b => by simp [hc]) f c h1 h2), fun f c _ h2 => by simp at h2⟩
    | peekSome b n hc hf _ => exact ⟨m.full, m.link, fun f c h1 h2 => .inl (frd (.inr fun b => by simp [hc]) f c h1 h2), fun f c _ h2 => by simp at h2⟩
    | move b hc hf =>
      refine ⟨m.full, m.link, fun f c h1 h2 => ?_, fun f c h1 h2 => ?_⟩
      all_goals
        have hb := ffirst b hf
        have hci := i.cons
        rw [hc] at hci
        have hn := (i.nextLt fb (Nat.le_refl _) hci).1
        dsimp only at h1 ⊢
        rw [hb, hn] at h1
        simp only [Option.some.injEq] at h1
      · by_cases hcb : c < b
        · exact .inl (frd (.inr fun b => by simp [hc]) b c hf hcb)
        · right; have : c = b := by omega
          rw [this]
      · dsimp only at h2
        injection h2 with h2
        omega
    | del b hc =>
      have hci := i.cons
      rw [hc] at hci
      have hw : ∀ c, (upd s.blocks b { s.blocks b with freed := true } c).w = (s.blocks c).w := by
        intro c; simp only [upd]; split
        · rename_i e; subst e; rfl
        · rfl
      refine ⟨fun c hc => ?_, fun e n hp => ?_, fun f c h1 h2 => .inl ?_, fun f c _ h2 => by simp at h2⟩
      · dsimp only at hc ⊢; rw [hw c]; exact m.full c hc
      · dsimp only at hp ⊢; rw [hw]; exact m.link e n hp
      · dsimp only at h1 ⊢
        simp only [upd]
        split
        · rfl
        · rename_i hne
          rcases m.freed f c h1 h2 with a | a
          · exact a
          · rw [hc] at a; injection a with a; exact absurd a.symm hne

theorem reach_minv {N : Nat} (hN : 0 < N) {g : Bool} {s : St} (h : Reach N g s) : MInv N s := by
  induction h with
  | init => exact minv_init N
  | step hr hs ih => exact minv_step hN hr ih hs

theorem countP_range_le (p : Nat → Bool) (k : Nat) (hp : ∀ b, b < k → p b = false) : ∀ n, (List.range n).countP p ≤ n - k := by
  intro n
  induction n with
  | zero => simp
  | succ n ih =>
    rw [List.range_succ, List.countP_append]
    by_cases h : n < k
    · simp [hp n h]; omega
    · have : List.countP p [n] ≤ 1 := by simpa using List.countP_le_length (p := p) (l := [n])
      omega

theorem bases {N : Nat} {s : St} {lb fb : Nat} (i : Inv N s lb fb) (m : MInv N s) :
    ∀ k, fb + k < s.top → (s.blocks fb).base + (s.blocks fb).w + k * N ≤ (s.blocks (fb + k + 1)).base := by
  intro k
  induction k with
  | zero =>
    intro h
    have := (i.nextLt fb (Nat.le_refl _) (by omega)).2
    rw [Nat.add_zero, this]; omega
  | succ k ih =>
    intro h
    have h1 := ih (by omega)
    have h2 := (i.nextLt (fb + k + 1) (by omega) (by omega)).2
    have h3 := m.full (fb + k + 1) (by omega)
    rw [show fb + (k + 1) + 1 = fb + k + 1 + 1 by omega, h2, Nat.succ_mul]
    omega

/-- **C32 (memory).** With callers that pop only what was pushed, under every interleaving and for every block size: every block except at most
four is covered by `N` entries that are waiting in the queue. -/
theorem C32_memory {N : Nat} (hN : 0 < N) {s : St} (h : Reach N true s) :
    liveBlocks s * N ≤ (s.pushed.length - s.popped.length) + 4 * N := by
  have m := reach_minv hN h
  rcases reach_both hN h with rfl | ⟨lb, fb, i, gi⟩
  · simp [liveBlocks, init]
  · have hplen : s.popped.length = (s.blocks fb).base + (s.blocks fb).r := by
      rw [gi.exact_, List.length_take, Nat.min_eq_left i.mono]
    have hnb : s.nb ≤ s.top + 2 := by
      have hp := i.prod
      revert hp
      cases s.prod <;> intro hp <;> simp only [PInv] at hp <;> omega
    have hlive : liveBlocks s ≤ s.nb - (fb - 1) := by
      refine countP_range_le _ _ (fun b hb => ?_) _
      rcases i.first with hf | hf
      · rcases m.freed fb b hf (by omega) with a | a
        · simp [a]
        · have := m.del fb b hf a
          omega
      · omega
    have hfl := i.fl
    have hout : (s.top - fb - 1) * N ≤ s.pushed.length - s.popped.length := by
      rw [hplen, ← i.len]
      have hrw := i.rw fb (Nat.le_refl _) hfl
      by_cases hlt : fb < s.top
      · have := bases i m (s.top - fb - 1) (by omega)
        rw [show fb + (s.top - fb - 1) + 1 = s.top by omega] at this
        omega
      · rw [show s.top - fb - 1 = 0 by omega]; simp
    have hk : liveBlocks s ≤ (s.top - fb - 1) + 4 := by omega
    calc liveBlocks s * N ≤ ((s.top - fb - 1) + 4) * N := Nat.mul_le_mul_right _ hk
      _ = (s.top - fb - 1) * N + 4 * N := Nat.add_mul _ _ _
      _ ≤ _ := by omega

/-- **C32 (memory between calls).** While neither thread is inside a call, the blocks not yet deleted are exactly those from `pFirstReadBlock` to
`pLastWriteBlock`: at most two of them are not covered by `N` waiting entries. -/
theorem C32_memory_quiet {N : Nat} (hN : 0 < N) {s : St} (h : Reach N true s) (hp : s.prod = .idle) (hc : s.cons = .idle) :
    liveBlocks s * N ≤ (s.pushed.length - s.popped.length) + 2 * N := by
  have m := reach_minv hN h
  rcases reach_both hN h with rfl | ⟨lb, fb, i, gi⟩
  · simp [liveBlocks, init]
  · have hplen : s.popped.length = (s.blocks fb).base + (s.blocks fb).r := by
      rw [gi.exact_, List.length_take, Nat.min_eq_left i.mono]
    have hpi := i.prod
    rw [hp] at hpi
    have hlive : liveBlocks s ≤ s.nb - fb := by
      refine countP_range_le _ _ (fun b hb => ?_) _
      rcases i.first with hf | hf
      · rcases m.freed fb b hf hb with a | a
        · simp [a]
        · rw [hc] at a; cases a
      · omega
    have hfl := i.fl
    have hout : (s.top - fb - 1) * N ≤ s.pushed.length - s.popped.length := by
      rw [hplen, ← i.len]
      have hrw := i.rw fb (Nat.le_refl _) hfl
      by_cases hlt : fb < s.top
      · have := bases i m (s.top - fb - 1) (by omega)
        rw [show fb + (s.top - fb - 1) + 1 = s.top by omega] at this
        omega
      · rw [show s.top - fb - 1 = 0 by omega]; simp
    have hk : liveBlocks s ≤ (s.top - fb - 1) + 2 := by have := hpi.2; omega
    calc liveBlocks s * N ≤ ((s.top - fb - 1) + 2) * N := Nat.mul_le_mul_right _ hk
      _ = (s.top - fb - 1) * N + 2 * N := Nat.add_mul _ _ _
      _ ≤ _ := by omega

/-- **C32 fails: the last block is never freed.** For every caller, from the first completed `Push` on, at least one block stays allocated, also when
every entry was taken out; destroying the queue frees nothing (no destructor), so every queue that was used once loses at least one block. -/
theorem C32_leak_fails {N : Nat} (hN : 0 < N) {g : Bool} {s : St} (h : Reach N g s) (hp : s.pushed ≠ []) : 0 < liveBlocks (destroy s) := by
  rcases reach_inv hN h with h0 | ⟨lb, fb, i⟩
  · rw [h0] at hp; simp [init] at hp
  · have hnb : s.top < s.nb := by
      have hpi := i.prod
      revert hpi
      cases s.prod <;> intro hp <;> simp only [PInv] at hp <;> omega
    simp only [destroy, liveBlocks]
    rw [List.countP_pos_iff]
    exact ⟨s.top, List.mem_range.2 hnb, by rw [i.live s.top i.fl hnb]; rfl⟩

/-- a state with two blocks and one waiting entry, and one with everything taken out and a block left -/
example : ∃ s, Reach 1 true s ∧ s.pushed = [7, 8] ∧ s.popped = [7] := guarded_ex
example : ∃ s, Reach 1 true s ∧ s.pushed ≠ [] := by
  obtain ⟨s, h, hp, _⟩ := guarded_ex
  exact ⟨s, h, by rw [hp]; simp⟩

#print axioms C32_memory
#print axioms C32_memory_quiet
#print axioms C32_leak_fails

end Verif.Spsc
