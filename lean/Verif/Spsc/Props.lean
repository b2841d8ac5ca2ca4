import Verif.Spsc.Lemmas
/-!
# C32 – the single-producer single-consumer queue
-/
namespace Verif.Spsc

theorem inv0_step {N : Nat} (hN : 0 < N) {g : Bool} {s s' : St} (h : Inv0 s) (hs : Step N g s s') : Inv0 s' ∨ ∃ lb fb, Inv N s' lb fb := by
  rw [Inv0] at h
  have e1 : s.prod = .idle := by rw [h]; rfl
  have e2 : s.cons = .idle := by rw [h]; rfl
  have e3 : s.first = none := by rw [h]; rfl
  have e4 : s.last = none := by rw [h]; rfl
  cases hs with
  | startNew e hp hl =>
    right
    rw [h]
    refine ⟨0, 0, ?_⟩
    constructor <;> simp [init, PInv, CInv, upd, fresh] <;> (intro b h1 h2; omega)
  | popNone hc hg hf =>
    left
    rw [Inv0]
    rw [h]
  | start e b hp hl => rw [e4] at hl; simp at hl
  | popStart b hc hg hf => rw [e3] at hf; simp at hf
  | setFirst _ hp | full _ _ hp _ _ | notFull _ _ hp _ _ | link _ _ _ hp _ | advance _ _ hp | write _ _ hp _ | bump _ _ hp _ => rw [e1] at hp; simp at hp
  | empty _ hc _ _ | nonEmpty _ hc _ _ | take _ hc _ | inc _ _ hc _ | peekNull _ hc _ _ | peekSome _ _ hc _ _ | move _ hc _ | del _ hc => rw [e2] at hc; simp at hc

theorem reach_inv {N : Nat} (hN : 0 < N) {g : Bool} {s : St} (h : Reach N g s) : Inv0 s ∨ ∃ lb fb, Inv N s lb fb := by
  induction h with
  | init => exact .inl rfl
  | step _ hs ih =>
    rcases ih with ih | ⟨lb, fb, ih⟩
    · exact inv0_step hN ih hs
    · exact .inr (inv_step hN ih hs)

/-- **C32 (order, no duplication; every caller).** Under every interleaving and for every block size the entries popped are some of the entries pushed, in push
order and none twice (as occurrences). Entries may be missing: see `C32_loss_fails`. -/
theorem C32_fifo_partial {N : Nat} (hN : 0 < N) {g : Bool} {s : St} (h : Reach N g s) : s.popped.Sublist s.pushed := by
  rcases reach_inv hN h with h | ⟨lb, fb, h⟩
  · rw [h]; exact List.Sublist.refl _
  · exact h.sub.trans (List.take_sublist _ _)

/-- **C32 (memory safety; every caller).** Neither thread ever touches a deleted block and no block is deleted twice. -/
theorem C32_safe {N : Nat} (hN : 0 < N) {g : Bool} {s : St} (h : Reach N g s) : ¬ Unsafe s := by
  rcases reach_inv hN h with h | ⟨lb, fb, h⟩
  · have e1 : s.prod = .idle := by rw [h]; rfl
    have e2 : s.cons = .idle := by rw [h]; rfl
    rintro (⟨e, b, hp, _⟩ | ⟨hc, _⟩ | ⟨b, hc, _⟩)
    · rw [e1] at hp; simp at hp
    · exact hc e2
    · rw [e2] at hc; simp at hc
  · have hprod := h.prod
    have hcons := h.cons
    have hnb : s.top < s.nb := by
      revert hprod
      cases s.prod <;> intro hp <;> simp only [PInv] at hp <;> omega
    have hfl := h.fl
    rintro (⟨e, b, hp, hl, hf⟩ | ⟨hc, hd, hf⟩ | ⟨b, hc, hf⟩)
    · have hb : b = lb := by rw [h.last] at hl; simpa using hl.symm
      have hlb : lb = s.top := by
        rcases hp with hp | ⟨n, hp⟩ | hp | hp <;> rw [hp] at hprod <;> exact hprod.1
      have := h.live b (by omega) (by omega)
      rw [this] at hf; simp at hf
    · rcases h.first with hfi | hfi
      · rcases hf with hf | ⟨b, hb, hf⟩
        · rw [hfi] at hf; simp at hf
        · rw [hfi] at hb
          have : b = fb := by simpa using hb.symm
          subst this
          rw [h.live b (Nat.le_refl _) (by omega)] at hf; simp at hf
      · exact hc hfi.2.2.1
    · rw [hc] at hcons
      rw [hcons.2] at hf; simp at hf

/-! ## Callers that pop only what was pushed -/

structure GInv (s : St) (fb : Nat) : Prop where
  exact_ : s.popped = s.pushed.take ((s.blocks fb).base + (s.blocks fb).r)
  busy : s.cons ≠ .idle → s.popped.length < s.pushed.length
  peek : s.cons = .peek → fb < s.top ∧ (s.blocks fb).r = (s.blocks fb).w
  move : s.cons = .move → (s.blocks fb).r = (s.blocks fb).w
  nulls : s.nulls = 0

/-- The invariants of both levels hold together along guarded executions. -/
def Both (N : Nat) (s : St) : Prop := (s = init) ∨ ∃ lb fb, Inv N s lb fb ∧ GInv s fb

theorem first_unique {N : Nat} {s : St} {lb fb lb' fb' : Nat} (h : Inv N s lb fb) (h' : Inv N s lb' fb') : fb = fb' := by
  rcases h.first with a | a <;> rcases h'.first with b | b
  · rw [a] at b; simpa using b
  · rw [a] at b; simp at b
  · rw [b] at a; simp at a
  · rw [a.2.1, b.2.1]

theorem take_grow {l : List Nat} {e k : Nat} (h : k ≤ l.length) : (l ++ [e]).take k = l.take k := by
  rw [List.take_append_of_le_length h]

theorem both_step {N : Nat} (hN : 0 < N) {s s' : St} (h : Both N s) (hs : Step N true s s') : Both N s' := by
  rcases h with rfl | ⟨lb, fb, h, hg⟩
  · right
    cases hs with
    | startNew e hp hl =>
      refine ⟨0, 0, ?_, ?_⟩
      · constructor <;> simp [init, PInv, CInv, upd, fresh] <;> (intro b h1 h2; omega)
      · constructor <;> simp [init, upd, fresh]
    | start e b hp hl => simp [init] at hl
    | popNone hc hg hf => simp [init] at hg
    | popStart b hc hg hf => simp [init] at hf
    | _ => simp_all [init]
  · right
    obtain ⟨lb', fb', h'⟩ := inv_step hN h hs
    refine ⟨lb', fb', h', ?_⟩
    have hplen : s.popped.length = (s.blocks fb).base + (s.blocks fb).r := by
      rw [hg.exact_, List.length_take, Nat.min_eq_left h.mono]
    have same : s'.first = s.first → (∀ e, s.prod ≠ .setFirst e) → fb' = fb := by
      intro he hn
      rcases h.first with a | a
      · rcases h'.first with b | b
        · rw [he, a] at b; simpa using b.symm
        · rw [b.1] at he; rw [← he] at a; simp at a
      · obtain ⟨_, _, _, e, hp⟩ := a; exact absurd hp (hn e)
    have ffirst : ∀ b, s.first = some b → b = fb := by
      intro b hb
      rcases h.first with hf | hf
      · rw [hf] at hb; simpa using hb.symm
      · rw [hf.1] at hb; simp at hb
    have cfirst : ∀ b, s.first = some b → s'.first = some b → fb' = fb := by
      intro b hb hb'
      rcases h'.first with a | a
      · rw [hb'] at a
        rw [← ffirst b hb]; simpa using a.symm
      · rw [a.1] at hb'; simp at hb'
    have lfirst : ∀ b, s.last = some b → b = lb := by
      intro b hb; rw [h.last] at hb; simpa using hb.symm
    have hprod := h.prod
    cases hs with
    | startNew e hp hl => rw [h.last] at hl; simp at hl
    | setFirst e hp =>
      have : fb' = fb := by
        rw [hp] at hprod
        rcases h'.first with b | b
        · have hb : s.last = some fb' := b
          have := lfirst _ hb
          have h1 := hprod.1; have h2 := hprod.2.2; have h3 := h.fl
          omega
        · obtain ⟨_, _, _, e', he⟩ := b; simp at he
      subst this
      exact ⟨hg.exact_, hg.busy, hg.peek, hg.move, hg.nulls⟩
    | start e b hp hl =>
      have := same rfl (by rw [hp]; simp)
      subst this
      exact ⟨hg.exact_, hg.busy, hg.peek, hg.move, hg.nulls⟩
    | full e b hp hl hfull =>
      have := same rfl (by rw [hp]; simp)
      subst this
      rw [hp] at hprod
      have := hprod.2; have hfl := h.fl
      have hne : upd s.blocks s.nb (fresh ((s.blocks b).base + (s.blocks b).w)) fb' = s.blocks fb' := by simp only [upd]; rw [if_neg (by omega)]
      refine ⟨?_, hg.busy, ?_, ?_, hg.nulls⟩
      · dsimp only; rw [hne]; exact hg.exact_
      · dsimp only; rw [hne]; exact hg.peek
      · dsimp only; rw [hne]; exact hg.move
    | notFull e b hp hl hfull =>
      have := same rfl (by rw [hp]; simp)
      subst this
      exact ⟨hg.exact_, hg.busy, hg.peek, hg.move, hg.nulls⟩
    | link e n b hp hl =>
      have := same rfl (by rw [hp]; simp)
      subst this
      rw [hp] at hprod
      have e1 : (upd s.blocks b { s.blocks b with next := some n } fb').base = (s.blocks fb').base := by simp only [upd]; split <;> simp_all
      have e2 : (upd s.blocks b { s.blocks b with next := some n } fb').r = (s.blocks fb').r := by simp only [upd]; split <;> simp_all
      have e3 : (upd s.blocks b { s.blocks b with next := some n } fb').w = (s.blocks fb').w := by simp only [upd]; split <;> simp_all
      refine ⟨?_, hg.busy, ?_, ?_, hg.nulls⟩
      · dsimp only; rw [e1, e2]; exact hg.exact_
      · dsimp only; rw [e2, e3]; intro hc
        have := hg.peek hc
        have := hprod.2.1
        exact ⟨by omega, (hg.peek hc).2⟩
      · dsimp only; rw [e2, e3]; exact hg.move
    | advance e n hp =>
      have := same rfl (by rw [hp]; simp)
      subst this
      exact ⟨hg.exact_, hg.busy, hg.peek, hg.move, hg.nulls⟩
    | write e b hp hl =>
      have := same rfl (by rw [hp]; simp)
      subst this
      clear h'
      generalize hB : ({ s.blocks b with buf := upd (s.blocks b).buf ((s.blocks b).w % N) e } : Block) = B
      have f1 : B.base = (s.blocks b).base := by rw [← hB]
      have f2 : B.r = (s.blocks b).r := by rw [← hB]
      have f3 : B.w = (s.blocks b).w := by rw [← hB]
      have e1 : (upd s.blocks b B fb').base = (s.blocks fb').base := by simp only [upd]; split; · rename_i e; rw [f1, e]
                                                                        · rfl
      have e2 : (upd s.blocks b B fb').r = (s.blocks fb').r := by simp only [upd]; split; · rename_i e; rw [f2, e]
                                                                  · rfl
      have e3 : (upd s.blocks b B fb').w = (s.blocks fb').w := by simp only [upd]; split; · rename_i e; rw [f3, e]
                                                                  · rfl
      refine ⟨?_, hg.busy, ?_, ?_, hg.nulls⟩
      · dsimp only; rw [e1, e2]; exact hg.exact_
      · dsimp only; rw [e2, e3]; exact hg.peek
      · dsimp only; rw [e2, e3]; exact hg.move
    | bump e b hp hl =>
      have := same rfl (by rw [hp]; simp)
      subst this
      rw [hp] at hprod
      have hbl := lfirst b hl
      have htop := hprod.1
      clear h'
      generalize hB : ({ s.blocks b with w := (s.blocks b).w + 1 } : Block) = B
      have f1 : B.base = (s.blocks b).base := by rw [← hB]
      have f2 : B.r = (s.blocks b).r := by rw [← hB]
      have e1 : (upd s.blocks b B fb').base = (s.blocks fb').base := by simp only [upd]; split; · rename_i e; rw [f1, e]
                                                                        · rfl
      have e2 : (upd s.blocks b B fb').r = (s.blocks fb').r := by simp only [upd]; split; · rename_i e; rw [f2, e]
                                                                  · rfl
      have e3 : fb' < s.top → (upd s.blocks b B fb').w = (s.blocks fb').w := by intro hlt; simp only [upd]; rw [if_neg (by omega)]
      refine ⟨?_, ?_, ?_, ?_, hg.nulls⟩
      · dsimp only; rw [e1, e2, take_grow h.mono]; exact hg.exact_
      · dsimp only; intro hc; have := hg.busy hc; simp; omega
      · dsimp only; intro hc
        have := hg.peek hc
        rw [e2, e3 this.1]; exact this
      · dsimp only; intro hc
        have hlt : fb' < s.top := by have := h.cons; rw [hc] at this; exact this
        rw [e2, e3 hlt]; exact hg.move hc
    | popNone hc hgd hf =>
      -- a completed push implies that the first block is published
      exfalso
      have hgd := hgd rfl
      rcases h.first with a | a
      · rw [a] at hf; simp at hf
      · obtain ⟨_, h0, _, e, hp⟩ := a
        rw [hp] at hprod
        rw [hprod.2.2.2] at hgd
        simp at hgd
    | popStart b hc hgd hf =>
      have := cfirst b hf hf
      subst this
      exact ⟨hg.exact_, fun _ => hgd rfl, by simp, by simp, hg.nulls⟩
    | empty b hc hf he =>
      have := cfirst b hf hf
      subst this
      have hb := ffirst b hf
      subst hb
      have hbusy := hg.busy (by rw [hc]; simp)
      refine ⟨hg.exact_, fun _ => hbusy, fun _ => ⟨?_, he⟩, by simp, hg.nulls⟩
      show b < s.top
      refine Nat.lt_of_le_of_ne h.fl ?_
      intro hbt
      have hlen := h.len
      rw [← hbt] at hlen
      omega
    | nonEmpty b hc hf he =>
      have := cfirst b hf hf
      subst this
      exact ⟨hg.exact_, fun _ => hg.busy (by rw [hc]; simp), by simp, by simp, hg.nulls⟩
    | take b hc hf =>
      have := cfirst b hf hf
      subst this
      exact ⟨hg.exact_, fun _ => hg.busy (by rw [hc]; simp), by simp, by simp, hg.nulls⟩
    | inc x b hc hf =>
      have := cfirst b hf hf
      subst this
      have hb := ffirst b hf
      subst hb
      have hci := h.cons
      rw [hc] at hci
      refine ⟨?_, by simp, by simp, by simp, hg.nulls⟩
      simp only [upd, if_true]
      rw [← Nat.add_assoc, List.take_add_one, hci.2, ← hg.exact_]
      rfl
    | peekNull b hc hf hn =>
      exfalso
      have hb := ffirst b hf
      subst hb
      have := (h.nextLt b (Nat.le_refl _) (hg.peek hc).1).1
      rw [hn] at this
      simp at this
    | peekSome b n hc hf hn =>
      have := cfirst b hf hf
      subst this
      exact ⟨hg.exact_, fun _ => hg.busy (by rw [hc]; simp), by simp, fun _ => (hg.peek hc).2, hg.nulls⟩
    | move b hc hf =>
      have hb := ffirst b hf
      subst hb
      have hci := h.cons
      rw [hc] at hci
      have hlt : b < s.top := hci
      obtain ⟨hn, hbase⟩ := h.nextLt b (Nat.le_refl _) hlt
      have hz := h.zero (b + 1) (by omega) (by omega)
      have : fb' = b + 1 := by
        rcases h'.first with a | a
        · have a : (s.blocks b).next = some fb' := a
          rw [hn] at a; simpa using a.symm
        · have a : (s.blocks b).next = none := a.1
          rw [hn] at a; simp at a
      subst this
      refine ⟨?_, fun _ => hg.busy (by rw [hc]; simp), by simp, by simp, hg.nulls⟩
      show s.popped = s.pushed.take ((s.blocks (b + 1)).base + (s.blocks (b + 1)).r)
      rw [hz, hbase, ← hg.move hc]
      exact hg.exact_
    | del b hc =>
      have hci := h.cons
      rw [hc] at hci
      have hf : s.first = some fb := by
        rcases h.first with hf | hf
        · exact hf
        · rw [hf.2.2.1] at hc; simp at hc
      have := cfirst fb hf hf
      subst this
      have hne : upd s.blocks b { s.blocks b with freed := true } fb' = s.blocks fb' := by
        have := hci.1
        simp only [upd]; rw [if_neg (by omega)]
      refine ⟨?_, fun _ => hg.busy (by rw [hc]; simp), by simp, by simp, hg.nulls⟩
      dsimp only
      rw [hne]; exact hg.exact_

theorem reach_both {N : Nat} (hN : 0 < N) {s : St} (h : Reach N true s) : Both N s := by
  induction h with
  | init => exact .inl rfl
  | step _ hs ih => exact both_step hN ih hs

/-- **C32 (callers that pop only what was pushed, as `ThreadTaskRunnerImpl` does).** Under every interleaving and every block size, the entries popped are exactly
the first entries pushed, in order, and `Pop` never reports an empty queue. -/
theorem C32_fifo_guarded_partial {N : Nat} (hN : 0 < N) {s : St} (h : Reach N true s) : s.popped <+: s.pushed ∧ s.nulls = 0 := by
  rcases reach_both hN h with rfl | ⟨lb, fb, h, hg⟩
  · exact ⟨List.prefix_rfl, rfl⟩
  · exact ⟨hg.exact_ ▸ List.take_prefix _ _, hg.nulls⟩

/-- steps of the consumer alone -/
inductive CStar (N : Nat) : St → St → Prop
  | refl {s} : CStar N s s
  | step {s s' s''} : Step N true s s' → s'.prod = s.prod → CStar N s' s'' → CStar N s s''

theorem CStar.trans {N : Nat} {a b c : St} (h : CStar N a b) (h' : CStar N b c) : CStar N a c := by
  induction h with
  | refl => exact h'
  | step h1 h2 _ ih => exact .step h1 h2 (ih h')

/-- from the test on, the consumer running alone obtains an entry -/
theorem pop_progress {N : Nat} (hN : 0 < N) (d : Nat) : ∀ {s : St} {lb fb : Nat}, Inv N s lb fb → GInv s fb → s.cons = .test → s.top - fb = d →
    ∃ s', CStar N s s' ∧ s'.cons = .idle ∧ s'.popped.length = s.popped.length + 1 := by
  induction d with
  | zero =>
    intro s lb fb h hg hc hd
    have hf : s.first = some fb := by
      rcases h.first with hf | hf
      · exact hf
      · rw [hf.2.2.1] at hc; simp at hc
    have htop : fb = s.top := by have := h.fl; omega
    have hbusy := hg.busy (by rw [hc]; simp)
    have hplen : s.popped.length = (s.blocks fb).base + (s.blocks fb).r := by
      rw [hg.exact_, List.length_take, Nat.min_eq_left h.mono]
    have hlen := h.len
    have hne : (s.blocks fb).r ≠ (s.blocks fb).w := by rw [← htop] at hlen; omega
    exact ⟨_, .step (.nonEmpty fb hc hf hne) rfl (.step (.take fb rfl hf) rfl (.step (.inc _ fb rfl hf) rfl .refl)), rfl, by simp⟩
  | succ d ih =>
    intro s lb fb h hg hc hd
    have hf : s.first = some fb := by
      rcases h.first with hf | hf
      · exact hf
      · rw [hf.2.2.1] at hc; simp at hc
    by_cases he : (s.blocks fb).r = (s.blocks fb).w
    · have hlt : fb < s.top := by omega
      have hn := (h.nextLt fb (Nat.le_refl _) hlt).1
      let s1 : St := { s with cons := .peek }
      let s2 : St := { s1 with cons := .move }
      let s3 : St := { s2 with first := some (fb + 1), cons := .del fb }
      let s4 : St := { s3 with blocks := upd s.blocks fb { s.blocks fb with freed := true }, cons := .test }
      have t1 : Step N true s s1 := .empty fb hc hf he
      have t2 : Step N true s1 s2 := .peekSome fb (fb + 1) rfl hf hn
      have t3 : Step N true s2 s3 := by
        have := Step.move (N := N) (g := true) (s := s2) fb rfl hf
        have e : (s2.blocks fb).next = some (fb + 1) := hn
        rw [e] at this
        exact this
      have t4 : Step N true s3 s4 := .del fb rfl
      have b4 : Both N s4 := both_step hN (both_step hN (both_step hN (both_step hN (.inr ⟨lb, fb, h, hg⟩) t1) t2) t3) t4
      rcases b4 with b4 | ⟨lb', fb', h', hg'⟩
      · have : s4.cons = init.cons := by rw [b4]
        simp [s4, init] at this
      · have hfb' : fb' = fb + 1 := by
          rcases h'.first with a | a
          · have a : some (fb + 1) = some fb' := a
            simpa using a.symm
          · have a : some (fb + 1) = none := a.1
            simp at a
        obtain ⟨s', c1, c2, c3⟩ := ih h' hg' rfl (by rw [hfb']; show s.top - (fb + 1) = d; omega)
        exact ⟨s', .step t1 rfl (.step t2 rfl (.step t3 rfl (.step t4 rfl c1))), c2, c3⟩
    · exact ⟨_, .step (.nonEmpty fb hc hf he) rfl (.step (.take fb rfl hf) rfl (.step (.inc _ fb rfl hf) rfl .refl)), rfl, by simp⟩

/-- **C32 (guarded callers, nothing is stuck).** Whenever an entry is pushed and not yet popped, a call of `Pop` – the producer standing still wherever it is – ends
and returns the next entry. -/
theorem C32_delivers {N : Nat} (hN : 0 < N) {s : St} (h : Reach N true s) (hc : s.cons = .idle) (hlt : s.popped.length < s.pushed.length) :
    ∃ s', CStar N s s' ∧ s'.cons = .idle ∧ s'.popped.length = s.popped.length + 1 := by
  rcases reach_both hN h with rfl | ⟨lb, fb, h, hg⟩
  · simp [init] at hlt
  · have hf : s.first = some fb := by
      rcases h.first with hf | hf
      · exact hf
      · obtain ⟨_, _, _, e, hp⟩ := hf
        have := h.prod
        rw [hp] at this
        rw [this.2.2.2] at hlt
        simp at hlt
    have t : Step N true s { s with cons := .test } := .popStart fb hc (fun _ => hlt) hf
    have b : Both N { s with cons := .test } := both_step hN (.inr ⟨lb, fb, h, hg⟩) t
    rcases b with b | ⟨lb', fb', h', hg'⟩
    · have : ({ s with cons := .test } : St).cons = init.cons := by rw [b]
      simp [init] at this
    · obtain ⟨s', c1, c2, c3⟩ := pop_progress hN _ h' hg' rfl rfl
      exact ⟨s', .step t rfl c1, c2, c3⟩

/-! ## The loss -/

/-- the state after one push and pop, the consumer having found the block empty, and `k` further pushes -/
theorem fill {N : Nat} (hN : 0 < N) (k : Nat) (hk : k ≤ N) : ∃ s, Reach N false s ∧ s.prod = .idle ∧ s.cons = .peek ∧ s.first = some 0 ∧ s.last = some 0 ∧ s.nb = 1 ∧
    (s.blocks 0).r = 1 ∧ (s.blocks 0).w = k + 1 ∧ (s.blocks 0).next = none ∧ s.pushed = List.range (k + 1) ∧ s.popped = [0] := by
  induction k with
  | zero =>
    have a1 := Reach.step (N := N) (g := false) .init (.startNew 0 rfl rfl)
    have a2 := Reach.step a1 (.setFirst 0 rfl)
    have a3 := Reach.step a2 (.notFull 0 0 rfl rfl (by simp [init, upd, fresh]; omega))
    have a4 := Reach.step a3 (.write 0 0 rfl rfl)
    have a5 := Reach.step a4 (.bump 0 0 rfl rfl)
    have a6 := Reach.step a5 (.popStart 0 rfl (by simp) rfl)
    have a7 := Reach.step a6 (.nonEmpty 0 rfl rfl (by simp [upd, fresh, init]))
    have a8 := Reach.step a7 (.take 0 rfl rfl)
    have a9 := Reach.step a8 (.inc _ 0 rfl rfl)
    have a10 := Reach.step a9 (.popStart 0 rfl (by simp) rfl)
    have a11 := Reach.step a10 (.empty 0 rfl rfl (by simp [upd, fresh, init]))
    exact ⟨_, a11, rfl, rfl, rfl, rfl, rfl, by simp [upd, fresh, init], by simp [upd, fresh, init], by simp [upd, fresh, init], rfl, by simp [upd, fresh, init]⟩
  | succ k ih =>
    obtain ⟨s, h, h1, h2, h3, h4, h5, h6, h7, h8, h9, h10⟩ := ih (by omega)
    have a1 := Reach.step h (.start (k + 1) 0 h1 h4)
    have a2 := Reach.step a1 (.notFull (k + 1) 0 rfl h4 (by simp only; omega))
    have a3 := Reach.step a2 (.write (k + 1) 0 rfl h4)
    have a4 := Reach.step a3 (.bump (k + 1) 0 rfl h4)
    refine ⟨_, a4, rfl, h2, h3, h4, h5, by simpa [upd] using h6, by simp [upd, h7], by simpa [upd] using h8, ?_, h10⟩
    simp only [h9]
    rw [List.range_succ (n := k + 1)]

/-- **C32 fails for arbitrary callers**, for every block size `N`: a consumer that found its block empty and is preempted while `N + 1` entries are pushed deletes the
block with `N` unread entries and returns the last one. -/
theorem C32_loss_fails {N : Nat} (hN : 0 < N) : ∃ s, Reach N false s ∧ s.prod = .idle ∧ s.cons = .idle ∧ s.pushed = List.range (N + 2) ∧ s.popped = [0, N + 1] ∧
    (∃ b, s.first = some b ∧ s.last = some b ∧ (s.blocks b).r = (s.blocks b).w) := by
  obtain ⟨s, h, h1, h2, h3, h4, h5, h6, h7, h8, h9, h10⟩ := fill hN N (Nat.le_refl _)
  have a1 := Reach.step h (.start (N + 1) 0 h1 h4)
  have a2 := Reach.step a1 (.full (N + 1) 0 rfl h4 (by simp only; omega))
  have a3 := Reach.step a2 (.link (N + 1) 1 0 (by simp [h5]) h4)
  have a4 := Reach.step a3 (.advance (N + 1) 1 rfl)
  have a5 := Reach.step a4 (.write (N + 1) 1 rfl rfl)
  have a6 := Reach.step a5 (.bump (N + 1) 1 rfl rfl)
  have a7 := Reach.step a6 (.peekSome 0 1 h2 h3 (by simp [upd, h5]))
  have a8 := Reach.step a7 (.move 0 rfl h3)
  have a9 := Reach.step a8 (.del 0 rfl)
  have a10 := Reach.step a9 (.nonEmpty 1 rfl (by simp [upd, h5]) (by simp [upd, h5, fresh]))
  have a11 := Reach.step a10 (.take 1 rfl (by simp [upd, h5]))
  have a12 := Reach.step a11 (.inc _ 1 rfl (by simp [upd, h5]))
  refine ⟨_, a12, rfl, rfl, ?_, ?_, 1, by simp [upd, h5], rfl, by simp [upd, h5, fresh]⟩
  · simp only [h9]
    rw [List.range_succ (n := N + 1)]
  · simp [upd, h5, fresh, h10]

/-- the guarded executions do push and pop -/
theorem guarded_ex : ∃ s, Reach 1 true s ∧ s.pushed = [7, 8] ∧ s.popped = [7] := by
  have a1 := Reach.step (N := 1) (g := true) .init (.startNew 7 rfl rfl)
  have a2 := Reach.step a1 (.setFirst 7 rfl)
  have a3 := Reach.step a2 (.notFull 7 0 rfl rfl (by simp [init, upd, fresh]))
  have a4 := Reach.step a3 (.write 7 0 rfl rfl)
  have a5 := Reach.step a4 (.bump 7 0 rfl rfl)
  have a6 := Reach.step a5 (.start 8 0 rfl rfl)
  have a7 := Reach.step a6 (.full 8 0 rfl rfl (by simp [init, upd, fresh]))
  have a8 := Reach.step a7 (.popStart 0 rfl (by simp [init]) rfl)
  have a9 := Reach.step a8 (.link 8 1 0 rfl rfl)
  have a10 := Reach.step a9 (.nonEmpty 0 rfl rfl (by simp [upd, fresh, init]))
  have a11 := Reach.step a10 (.advance 8 1 rfl)
  have a12 := Reach.step a11 (.take 0 rfl rfl)
  have a13 := Reach.step a12 (.write 8 1 rfl rfl)
  have a14 := Reach.step a13 (.bump 8 1 rfl rfl)
  have a15 := Reach.step a14 (.inc _ 0 rfl rfl)
  exact ⟨_, a15, rfl, by simp [upd, fresh, init]⟩

#print axioms C32_fifo_partial
#print axioms C32_safe
#print axioms C32_fifo_guarded_partial
#print axioms C32_delivers
#print axioms C32_loss_fails

end Verif.Spsc
