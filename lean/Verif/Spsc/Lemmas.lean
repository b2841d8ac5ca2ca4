import Verif.Spsc.Model
/-!
Invariants of the single-producer single-consumer queue.
-/
namespace Verif.Spsc

def PInv (N : Nat) (s : St) (lb : Nat) : PPC → Prop
  | .idle => lb = s.top ∧ s.nb = s.top + 1
  | .setFirst _ => lb = s.top ∧ s.nb = s.top + 1 ∧ s.top = 0 ∧ s.pushed = []
  | .check _ => lb = s.top ∧ s.nb = s.top + 1
  | .link _ n => lb = s.top ∧ n = s.top + 1 ∧ s.nb = s.top + 2 ∧ s.blocks n = fresh ((s.blocks s.top).base + (s.blocks s.top).w)
  | .advance _ n => lb + 1 = s.top ∧ n = s.top ∧ s.nb = s.top + 1 ∧ (s.blocks s.top).w < (s.blocks s.top).r + N
  | .write _ => lb = s.top ∧ s.nb = s.top + 1 ∧ (s.blocks s.top).w < (s.blocks s.top).r + N
  | .bump e => lb = s.top ∧ s.nb = s.top + 1 ∧ (s.blocks s.top).w < (s.blocks s.top).r + N ∧ (s.blocks s.top).buf ((s.blocks s.top).w % N) = e

def CInv (s : St) (fb : Nat) : CPC → Prop
  | .idle => True
  | .test => True
  | .take => (s.blocks fb).r < (s.blocks fb).w
  | .inc x => (s.blocks fb).r < (s.blocks fb).w ∧ s.pushed[(s.blocks fb).base + (s.blocks fb).r]? = some x
  | .peek => True
  | .move => fb < s.top
  | .del b => b < fb ∧ (s.blocks b).freed = false

structure Inv (N : Nat) (s : St) (lb fb : Nat) : Prop where
  last : s.last = some lb
  first : s.first = some fb ∨ (s.first = none ∧ fb = 0 ∧ s.cons = .idle ∧ ∃ e, s.prod = .setFirst e)
  fl : fb ≤ s.top
  prod : PInv N s lb s.prod
  nextTop : (s.blocks s.top).next = none
  nextLt : ∀ b, fb ≤ b → b < s.top → (s.blocks b).next = some (b + 1) ∧ (s.blocks (b + 1)).base = (s.blocks b).base + (s.blocks b).w
  rw : ∀ b, fb ≤ b → b ≤ s.top → (s.blocks b).r ≤ (s.blocks b).w
  full : (s.blocks s.top).w ≤ (s.blocks s.top).r + N
  zero : ∀ b, fb < b → b ≤ s.top → (s.blocks b).r = 0
  cont : ∀ b, fb ≤ b → b ≤ s.top → ∀ j, (s.blocks b).r ≤ j → j < (s.blocks b).w → s.pushed[(s.blocks b).base + j]? = some ((s.blocks b).buf (j % N))
  len : (s.blocks s.top).base + (s.blocks s.top).w = s.pushed.length
  mono : (s.blocks fb).base + (s.blocks fb).r ≤ s.pushed.length
  sub : s.popped.Sublist (s.pushed.take ((s.blocks fb).base + (s.blocks fb).r))
  live : ∀ b, fb ≤ b → b < s.nb → (s.blocks b).freed = false
  cons : CInv s fb s.cons

def Inv0 (s : St) : Prop := s = { init with nulls := s.nulls }

theorem mod_ne {N w j : Nat} (h1 : j < w) (h2 : w < j + N) : j % N ≠ w % N := by
  intro h
  have : (w - j) % N = 0 := Nat.sub_mod_eq_zero_of_mod_eq h.symm
  rw [Nat.mod_eq_of_lt (by omega)] at this
  omega

theorem inv_step {N : Nat} (hN : 0 < N) {g : Bool} {s s' : St} {lb fb : Nat} (h : Inv N s lb fb) (hs : Step N g s s') : ∃ lb' fb', Inv N s' lb' fb' := by
  have hlast := h.last
  have hprod := h.prod
  have hcons := h.cons
  have hfl := h.fl
  -- the consumer's block
  have ffirst : ∀ b, s.first = some b → b = fb := by
    intro b hb
    rcases h.first with hf | hf
    · rw [hf] at hb; simpa using hb.symm
    · rw [hf.1] at hb; simp at hb
  have lfirst : ∀ b, s.last = some b → b = lb := by
    intro b hb; rw [hlast] at hb; simpa using hb.symm
  cases hs with
  | startNew e hp hl => rw [hl] at hlast; simp at hlast
  | setFirst e hp =>
    rw [hp] at hprod
    have hfb : s.last = some fb := by
      rcases h.first with hf | hf
      · have := hprod.2.2.1; rw [hlast, hprod.1]; congr 1; omega
      · have := hprod.2.2.1; have := hf.2.1; rw [hlast, hprod.1]; congr 1; omega
    exact ⟨lb, fb, hlast, .inl hfb, h.fl, ⟨hprod.1, hprod.2.1⟩, h.nextTop, h.nextLt, h.rw, h.full, h.zero, h.cont, h.len, h.mono, h.sub, h.live, h.cons⟩
  | start e b hp hl =>
    rw [hp] at hprod
    refine ⟨lb, fb, hlast, ?_, h.fl, hprod, h.nextTop, h.nextLt, h.rw, h.full, h.zero, h.cont, h.len, h.mono, h.sub, h.live, h.cons⟩
    rcases h.first with hf | hf
    · exact .inl hf
    · obtain ⟨_, _, _, e', he'⟩ := hf; rw [he'] at hp; simp at hp
  | full e b hp hl hfull =>
    rw [hp] at hprod
    obtain ⟨h1, h2⟩ := hprod
    have := lfirst b hl
    subst this
    subst h1
    have hnb : s.nb ≠ s.top := by omega
    have hne : ∀ b, b ≤ s.top → upd s.blocks s.nb (fresh ((s.blocks s.top).base + (s.blocks s.top).w)) b = s.blocks b := by
      intro b hb; simp only [upd]; rw [if_neg (by omega)]
    have hf : s.first = some fb := by
      rcases h.first with hf | hf
      · exact hf
      · obtain ⟨_, _, _, e', he'⟩ := hf; rw [he'] at hp; simp at hp
    refine ⟨s.top, fb, hlast, .inl hf, h.fl, ?_, ?_, ?_, ?_, ?_, ?_, ?_, ?_, ?_, ?_, ?_, ?_⟩
    · refine ⟨rfl, h2, by dsimp only; omega, ?_⟩
      dsimp only
      rw [hne s.top (by omega)]
      simp [upd]
    · dsimp only
      rw [hne _ (Nat.le_refl _)]; exact h.nextTop
    · intro b hb1 hb2
      dsimp only
      have hb2' : b < s.top := hb2
      rw [hne b (by omega), hne (b + 1) (by omega)]
      exact h.nextLt b hb1 hb2
    · intro b hb1 hb2
      dsimp only
      rw [hne b hb2]; exact h.rw b hb1 hb2
    · dsimp only
      rw [hne _ (Nat.le_refl _)]; exact h.full
    · intro b hb1 hb2
      dsimp only
      rw [hne b hb2]; exact h.zero b hb1 hb2
    · intro b hb1 hb2
      dsimp only
      rw [hne b hb2]; exact h.cont b hb1 hb2
    · dsimp only
      rw [hne _ (Nat.le_refl _)]; exact h.len
    · dsimp only
      rw [hne _ h.fl]; exact h.mono
    · dsimp only
      rw [hne _ h.fl]; exact h.sub
    · intro b hb1 hb2
      dsimp only
      have hb2' : b < s.nb + 1 := hb2
      by_cases hb : b = s.nb
      · simp [upd, hb, fresh]
      · rw [hne b (by omega)]; exact h.live b hb1 (by omega)
    · show CInv _ fb s.cons
      revert hcons
      cases s.cons with
      | take => intro hc; dsimp only [CInv]; rw [hne _ h.fl]; exact hc
      | inc x => intro hc; dsimp only [CInv]; rw [hne _ h.fl]; exact hc
      | del b =>
        intro hc
        refine ⟨hc.1, ?_⟩
        dsimp only
        have := hc.1
        rw [hne b (by omega)]; exact hc.2
      | _ => intro hc; exact hc
  | notFull e b hp hl hfull =>
    rw [hp] at hprod
    obtain ⟨h1, h2⟩ := hprod
    have := lfirst b hl
    subst this
    subst h1
    have hf : s.first = some fb := by
      rcases h.first with hf | hf
      · exact hf
      · obtain ⟨_, _, _, e', he'⟩ := hf; rw [he'] at hp; simp at hp
    refine ⟨s.top, fb, hlast, .inl hf, h.fl, ⟨rfl, h2, ?_⟩, h.nextTop, h.nextLt, h.rw, h.full, h.zero, h.cont, h.len, h.mono, h.sub, h.live, h.cons⟩
    have := h.full
    show (s.blocks s.top).w < (s.blocks s.top).r + N
    omega
  | link e n b hp hl =>
    rw [hp] at hprod
    obtain ⟨h1, h2, h3, h4⟩ := hprod
    have := lfirst b hl
    subst this
    subst h1
    have hf : s.first = some fb := by
      rcases h.first with hf | hf
      · exact hf
      · obtain ⟨_, _, _, e', he'⟩ := hf; rw [he'] at hp; simp at hp
    subst h2
    -- only the field `next` of the old top changes
    have hne : ∀ b, b ≠ s.top → upd s.blocks s.top { s.blocks s.top with next := some (s.top + 1) } b = s.blocks b := by
      intro b hb; simp [upd, hb]
    have heq : upd s.blocks s.top { s.blocks s.top with next := some (s.top + 1) } s.top = { s.blocks s.top with next := some (s.top + 1) } := by simp [upd]
    have hr : ∀ b, (upd s.blocks s.top { s.blocks s.top with next := some (s.top + 1) } b).r = (s.blocks b).r := by
      intro b; by_cases hb : b = s.top
      · subst hb; rw [heq]
      · rw [hne b hb]
    have hw : ∀ b, (upd s.blocks s.top { s.blocks s.top with next := some (s.top + 1) } b).w = (s.blocks b).w := by
      intro b; by_cases hb : b = s.top
      · subst hb; rw [heq]
      · rw [hne b hb]
    have hba : ∀ b, (upd s.blocks s.top { s.blocks s.top with next := some (s.top + 1) } b).base = (s.blocks b).base := by
      intro b; by_cases hb : b = s.top
      · subst hb; rw [heq]
      · rw [hne b hb]
    have hbu : ∀ b, (upd s.blocks s.top { s.blocks s.top with next := some (s.top + 1) } b).buf = (s.blocks b).buf := by
      intro b; by_cases hb : b = s.top
      · subst hb; rw [heq]
      · rw [hne b hb]
    have hfr : ∀ b, (upd s.blocks s.top { s.blocks s.top with next := some (s.top + 1) } b).freed = (s.blocks b).freed := by
      intro b; by_cases hb : b = s.top
      · subst hb; rw [heq]
      · rw [hne b hb]
    have n1 : (s.blocks (s.top + 1)).r = 0 := by rw [h4]; rfl
    have n2 : (s.blocks (s.top + 1)).w = 0 := by rw [h4]; rfl
    have n3 : (s.blocks (s.top + 1)).base = (s.blocks s.top).base + (s.blocks s.top).w := by rw [h4]; rfl
    have n4 : (s.blocks (s.top + 1)).next = none := by rw [h4]; rfl
    refine ⟨s.top, fb, hlast, .inl hf, Nat.le_succ_of_le h.fl, ?_, ?_, ?_, ?_, ?_, ?_, ?_, ?_, ?_, ?_, ?_, ?_⟩
    · refine ⟨rfl, rfl, h3, ?_⟩
      dsimp only
      rw [hr, hw, n1, n2]; omega
    · dsimp only
      rw [hne _ (by omega)]; exact n4
    · intro b hb1 hb2
      dsimp only
      rw [hba, hba, hw]
      have hb2' : b < s.top + 1 := hb2
      by_cases hb : b = s.top
      · subst hb; rw [heq]; exact ⟨rfl, n3⟩
      · rw [hne b hb]; exact h.nextLt b hb1 (by omega)
    · intro b hb1 hb2
      dsimp only
      rw [hr, hw]
      have hb2' : b ≤ s.top + 1 := hb2
      by_cases hb : b = s.top + 1
      · subst hb; omega
      · exact h.rw b hb1 (by omega)
    · dsimp only
      rw [hr, hw]; omega
    · intro b hb1 hb2
      dsimp only
      rw [hr]
      have hb2' : b ≤ s.top + 1 := hb2
      by_cases hb : b = s.top + 1
      · subst hb; exact n1
      · exact h.zero b hb1 (by omega)
    · intro b hb1 hb2 j hj1 hj2
      dsimp only at hj1 hj2
      dsimp only
      rw [hba, hbu]
      rw [hr] at hj1
      rw [hw] at hj2
      have hb2' : b ≤ s.top + 1 := hb2
      by_cases hb : b = s.top + 1
      · subst hb; omega
      · exact h.cont b hb1 (by omega) j hj1 hj2
    · dsimp only
      rw [hba, hw, n2, n3]; exact h.len
    · dsimp only
      rw [hba, hr]; exact h.mono
    · dsimp only
      rw [hba, hr]; exact h.sub
    · intro b hb1 hb2
      dsimp only
      rw [hfr]; exact h.live b hb1 hb2
    · show CInv _ fb s.cons
      revert hcons
      cases s.cons with
      | take => intro hc; dsimp only [CInv]; rw [hr, hw]; exact hc
      | inc x => intro hc; dsimp only [CInv]; rw [hr, hw, hba]; exact hc
      | del b =>
        intro hc
        refine ⟨hc.1, ?_⟩
        dsimp only
        rw [hfr]; exact hc.2
      | move => intro hc; exact Nat.lt_succ_of_lt hc
      | _ => intro hc; exact hc
  | advance e n hp =>
    rw [hp] at hprod
    obtain ⟨h1, h2, h3, h4⟩ := hprod
    have hf : s.first = some fb := by
      rcases h.first with hf | hf
      · exact hf
      · obtain ⟨_, _, _, e', he'⟩ := hf; rw [he'] at hp; simp at hp
    exact ⟨n, fb, rfl, .inl hf, h.fl, ⟨h2, h3, h4⟩, h.nextTop, h.nextLt, h.rw, h.full, h.zero, h.cont, h.len, h.mono, h.sub, h.live, h.cons⟩
  | write e b hp hl =>
    rw [hp] at hprod
    obtain ⟨h1, h2, h3⟩ := hprod
    have := lfirst b hl
    subst this
    subst h1
    have hf : s.first = some fb := by
      rcases h.first with hf | hf
      · exact hf
      · obtain ⟨_, _, _, e', he'⟩ := hf; rw [he'] at hp; simp at hp
    generalize hB : ({ s.blocks s.top with buf := upd (s.blocks s.top).buf ((s.blocks s.top).w % N) e } : Block) = B
    have Br : B.r = (s.blocks s.top).r := by rw [← hB]
    have Bw : B.w = (s.blocks s.top).w := by rw [← hB]
    have Bn : B.next = (s.blocks s.top).next := by rw [← hB]
    have Bf : B.freed = (s.blocks s.top).freed := by rw [← hB]
    have Bb : B.base = (s.blocks s.top).base := by rw [← hB]
    have Bu : B.buf = upd (s.blocks s.top).buf ((s.blocks s.top).w % N) e := by rw [← hB]
    have hne : ∀ b, b ≠ s.top → upd s.blocks s.top B b = s.blocks b := by
      intro b hb; simp [upd, hb]
    have heq : upd s.blocks s.top B s.top = B := by simp [upd]
    have hr : ∀ b, (upd s.blocks s.top B b).r = (s.blocks b).r := by
      intro b; by_cases hb : b = s.top
      · subst hb; rw [heq, Br]
      · rw [hne b hb]
    have hw : ∀ b, (upd s.blocks s.top B b).w = (s.blocks b).w := by
      intro b; by_cases hb : b = s.top
      · subst hb; rw [heq, Bw]
      · rw [hne b hb]
    have hba : ∀ b, (upd s.blocks s.top B b).base = (s.blocks b).base := by
      intro b; by_cases hb : b = s.top
      · subst hb; rw [heq, Bb]
      · rw [hne b hb]
    have hnx : ∀ b, (upd s.blocks s.top B b).next = (s.blocks b).next := by
      intro b; by_cases hb : b = s.top
      · subst hb; rw [heq, Bn]
      · rw [hne b hb]
    have hfr : ∀ b, (upd s.blocks s.top B b).freed = (s.blocks b).freed := by
      intro b; by_cases hb : b = s.top
      · subst hb; rw [heq, Bf]
      · rw [hne b hb]
    refine ⟨s.top, fb, hlast, .inl hf, h.fl, ?_, ?_, ?_, ?_, ?_, ?_, ?_, ?_, ?_, ?_, ?_, ?_⟩
    · refine ⟨rfl, h2, ?_, ?_⟩
      · dsimp only
        rw [hr, hw]; exact h3
      · dsimp only
        rw [hw, heq, Bu]; simp [upd]
    · dsimp only
      rw [hnx]; exact h.nextTop
    · intro b hb1 hb2
      dsimp only
      rw [hba, hba, hw, hnx]; exact h.nextLt b hb1 hb2
    · intro b hb1 hb2
      dsimp only
      rw [hr, hw]; exact h.rw b hb1 hb2
    · dsimp only
      rw [hr, hw]; exact h.full
    · intro b hb1 hb2
      dsimp only
      rw [hr]; exact h.zero b hb1 hb2
    · intro b hb1 hb2 j hj1 hj2
      dsimp only at hj1 hj2
      dsimp only
      rw [hr] at hj1
      rw [hw] at hj2
      rw [hba]
      by_cases hb : b = s.top
      · subst hb
        rw [heq, Bu]
        simp only [upd]
        rw [if_neg (mod_ne hj2 (by omega))]
        exact h.cont _ hb1 hb2 j hj1 hj2
      · rw [hne b hb]; exact h.cont b hb1 hb2 j hj1 hj2
    · dsimp only
      rw [hba, hw]; exact h.len
    · dsimp only
      rw [hba, hr]; exact h.mono
    · dsimp only
      rw [hba, hr]; exact h.sub
    · intro b hb1 hb2
      dsimp only
      rw [hfr]; exact h.live b hb1 hb2
    · show CInv _ fb s.cons
      revert hcons
      cases s.cons with
      | take => intro hc; dsimp only [CInv]; rw [hr, hw]; exact hc
      | inc x => intro hc; dsimp only [CInv]; rw [hr, hw, hba]; exact hc
      | del b =>
        intro hc
        refine ⟨hc.1, ?_⟩
        dsimp only
        rw [hfr]; exact hc.2
      | _ => intro hc; exact hc
  | bump e b hp hl =>
    rw [hp] at hprod
    obtain ⟨h1, h2, h3, h4⟩ := hprod
    have := lfirst b hl
    subst this
    subst h1
    have hf : s.first = some fb := by
      rcases h.first with hf | hf
      · exact hf
      · obtain ⟨_, _, _, e', he'⟩ := hf; rw [he'] at hp; simp at hp
    generalize hB : ({ s.blocks s.top with w := (s.blocks s.top).w + 1 } : Block) = B
    have Br : B.r = (s.blocks s.top).r := by rw [← hB]
    have Bw : B.w = (s.blocks s.top).w + 1 := by rw [← hB]
    have Bn : B.next = (s.blocks s.top).next := by rw [← hB]
    have Bf : B.freed = (s.blocks s.top).freed := by rw [← hB]
    have Bb : B.base = (s.blocks s.top).base := by rw [← hB]
    have Bu : B.buf = (s.blocks s.top).buf := by rw [← hB]
    have hne : ∀ b, b ≠ s.top → upd s.blocks s.top B b = s.blocks b := by
      intro b hb; simp [upd, hb]
    have heq : upd s.blocks s.top B s.top = B := by simp [upd]
    have hr : ∀ b, (upd s.blocks s.top B b).r = (s.blocks b).r := by
      intro b; by_cases hb : b = s.top
      · subst hb; rw [heq, Br]
      · rw [hne b hb]
    have hw : ∀ b, (upd s.blocks s.top B b).w = (s.blocks b).w + if b = s.top then 1 else 0 := by
      intro b; by_cases hb : b = s.top
      · subst hb; rw [heq, Bw, if_pos rfl]
      · rw [hne b hb, if_neg hb]; rfl
    have hba : ∀ b, (upd s.blocks s.top B b).base = (s.blocks b).base := by
      intro b; by_cases hb : b = s.top
      · subst hb; rw [heq, Bb]
      · rw [hne b hb]
    have hnx : ∀ b, (upd s.blocks s.top B b).next = (s.blocks b).next := by
      intro b; by_cases hb : b = s.top
      · subst hb; rw [heq, Bn]
      · rw [hne b hb]
    have hbu : ∀ b, (upd s.blocks s.top B b).buf = (s.blocks b).buf := by
      intro b; by_cases hb : b = s.top
      · subst hb; rw [heq, Bu]
      · rw [hne b hb]
    have hfr : ∀ b, (upd s.blocks s.top B b).freed = (s.blocks b).freed := by
      intro b; by_cases hb : b = s.top
      · subst hb; rw [heq, Bf]
      · rw [hne b hb]
    have hlen := h.len
    refine ⟨s.top, fb, hlast, .inl hf, h.fl, ⟨rfl, h2⟩, ?_, ?_, ?_, ?_, ?_, ?_, ?_, ?_, ?_, ?_, ?_⟩
    · dsimp only
      rw [hnx]; exact h.nextTop
    · intro b hb1 hb2
      dsimp only
      have hb2' : b < s.top := hb2
      rw [hba, hba, hw, hnx, if_neg (by omega)]; exact h.nextLt b hb1 hb2
    · intro b hb1 hb2
      dsimp only
      rw [hr, hw]; have := h.rw b hb1 hb2; omega
    · dsimp only
      rw [hr, hw, if_pos rfl]; omega
    · intro b hb1 hb2
      dsimp only
      rw [hr]; exact h.zero b hb1 hb2
    · intro b hb1 hb2 j hj1 hj2
      dsimp only at hj1 hj2
      dsimp only
      rw [hr] at hj1
      rw [hw] at hj2
      rw [hba, hbu]
      by_cases hj : j < (s.blocks b).w
      · have := h.cont b hb1 hb2 j hj1 hj
        rw [List.getElem?_append_left ?_]
        · exact this
        · exact (List.getElem?_eq_some_iff.1 this).1
      · have hb : b = s.top := by
          refine Classical.byContradiction fun hb => ?_
          rw [if_neg hb] at hj2; omega
        subst hb
        rw [if_pos rfl] at hj2
        have hjw : j = (s.blocks s.top).w := by omega
        subst hjw
        rw [hlen, h4]
        simp
    · dsimp only
      rw [hba, hw, if_pos rfl]; simp; omega
    · dsimp only
      rw [hba, hr]; have := h.mono; simp; omega
    · dsimp only
      rw [hba, hr, List.take_append]
      exact h.sub.trans (List.sublist_append_left _ _)
    · intro b hb1 hb2
      dsimp only
      rw [hfr]; exact h.live b hb1 hb2
    · show CInv _ fb s.cons
      revert hcons
      cases s.cons with
      | take => intro hc; dsimp only [CInv]; rw [hr, hw]; exact Nat.lt_add_right _ hc
      | inc x =>
        intro hc
        dsimp only [CInv]
        rw [hr, hw, hba]
        refine ⟨Nat.lt_add_right _ hc.1, ?_⟩
        rw [List.getElem?_append_left (List.getElem?_eq_some_iff.1 hc.2).1]
        exact hc.2
      | del b =>
        intro hc
        refine ⟨hc.1, ?_⟩
        dsimp only
        rw [hfr]; exact hc.2
      | _ => intro hc; exact hc
  | popNone hc hg hf =>
    exact ⟨lb, fb, hlast, h.first, h.fl, h.prod, h.nextTop, h.nextLt, h.rw, h.full, h.zero, h.cont, h.len, h.mono, h.sub, h.live, h.cons⟩
  | popStart b hc hg hf =>
    have := ffirst b hf
    subst this
    exact ⟨lb, b, hlast, .inl hf, h.fl, h.prod, h.nextTop, h.nextLt, h.rw, h.full, h.zero, h.cont, h.len, h.mono, h.sub, h.live, trivial⟩
  | empty b hc hf he =>
    have := ffirst b hf
    subst this
    exact ⟨lb, b, hlast, .inl hf, h.fl, h.prod, h.nextTop, h.nextLt, h.rw, h.full, h.zero, h.cont, h.len, h.mono, h.sub, h.live, trivial⟩
  | nonEmpty b hc hf he =>
    have := ffirst b hf
    subst this
    refine ⟨lb, b, hlast, .inl hf, h.fl, h.prod, h.nextTop, h.nextLt, h.rw, h.full, h.zero, h.cont, h.len, h.mono, h.sub, h.live, ?_⟩
    have := h.rw b (Nat.le_refl _) h.fl
    show (s.blocks b).r < (s.blocks b).w
    omega
  | take b hc hf =>
    have := ffirst b hf
    subst this
    rw [hc] at hcons
    refine ⟨lb, b, hlast, .inl hf, h.fl, h.prod, h.nextTop, h.nextLt, h.rw, h.full, h.zero, h.cont, h.len, h.mono, h.sub, h.live, hcons, ?_⟩
    exact h.cont b (Nat.le_refl _) h.fl _ (Nat.le_refl _) hcons
  | inc x b hc hf =>
    have := ffirst b hf
    subst this
    rw [hc] at hcons
    obtain ⟨hc1, hc2⟩ := hcons
    generalize hB : ({ s.blocks b with r := (s.blocks b).r + 1 } : Block) = B
    have Br : B.r = (s.blocks b).r + 1 := by rw [← hB]
    have Bw : B.w = (s.blocks b).w := by rw [← hB]
    have Bn : B.next = (s.blocks b).next := by rw [← hB]
    have Bf : B.freed = (s.blocks b).freed := by rw [← hB]
    have Bb : B.base = (s.blocks b).base := by rw [← hB]
    have Bu : B.buf = (s.blocks b).buf := by rw [← hB]
    have hne : ∀ c, c ≠ b → upd s.blocks b B c = s.blocks c := by
      intro c hb; simp [upd, hb]
    have heq : upd s.blocks b B b = B := by simp [upd]
    have hr : ∀ c, (upd s.blocks b B c).r = (s.blocks c).r + if c = b then 1 else 0 := by
      intro c; by_cases hb : c = b
      · subst hb; rw [heq, Br, if_pos rfl]
      · rw [hne c hb, if_neg hb]; rfl
    have hw : ∀ c, (upd s.blocks b B c).w = (s.blocks c).w := by
      intro c; by_cases hb : c = b
      · subst hb; rw [heq, Bw]
      · rw [hne c hb]
    have hba : ∀ c, (upd s.blocks b B c).base = (s.blocks c).base := by
      intro c; by_cases hb : c = b
      · subst hb; rw [heq, Bb]
      · rw [hne c hb]
    have hnx : ∀ c, (upd s.blocks b B c).next = (s.blocks c).next := by
      intro c; by_cases hb : c = b
      · subst hb; rw [heq, Bn]
      · rw [hne c hb]
    have hbu : ∀ c, (upd s.blocks b B c).buf = (s.blocks c).buf := by
      intro c; by_cases hb : c = b
      · subst hb; rw [heq, Bu]
      · rw [hne c hb]
    have hfr : ∀ c, (upd s.blocks b B c).freed = (s.blocks c).freed := by
      intro c; by_cases hb : c = b
      · subst hb; rw [heq, Bf]
      · rw [hne c hb]
    have hlt := (List.getElem?_eq_some_iff.1 hc2).1
    refine ⟨lb, b, hlast, .inl hf, h.fl, ?_, ?_, ?_, ?_, ?_, ?_, ?_, ?_, ?_, ?_, ?_, trivial⟩
    · show PInv N _ lb s.prod
      revert hprod
      cases s.prod with
      | link e n =>
        intro hp
        refine ⟨hp.1, hp.2.1, hp.2.2.1, ?_⟩
        dsimp only
        rw [hba, hw, hne n (by have := hp.2.1; omega)]
        exact hp.2.2.2
      | advance e n =>
        intro hp
        refine ⟨hp.1, hp.2.1, hp.2.2.1, ?_⟩
        dsimp only
        rw [hw, hr]; have := hp.2.2.2; omega
      | write e =>
        intro hp
        refine ⟨hp.1, hp.2.1, ?_⟩
        dsimp only
        rw [hw, hr]; have := hp.2.2; omega
      | bump e =>
        intro hp
        refine ⟨hp.1, hp.2.1, ?_, ?_⟩
        · dsimp only
          rw [hw, hr]; have := hp.2.2.1; omega
        · dsimp only
          rw [hw, hbu]; exact hp.2.2.2
      | _ => intro hp; exact hp
    · dsimp only
      rw [hnx]; exact h.nextTop
    · intro c hb1 hb2
      dsimp only
      rw [hba, hba, hw, hnx]; exact h.nextLt c hb1 hb2
    · intro c hb1 hb2
      dsimp only
      rw [hr, hw]
      have := h.rw c hb1 hb2
      split
      · rename_i e; subst e; omega
      · omega
    · dsimp only
      rw [hr, hw]; have := h.full; omega
    · intro c hb1 hb2
      dsimp only
      rw [hr, if_neg (by omega)]; exact h.zero c hb1 hb2
    · intro c hb1 hb2 j hj1 hj2
      dsimp only at hj1 hj2
      dsimp only
      rw [hr] at hj1
      rw [hw] at hj2
      rw [hba, hbu]
      exact h.cont c hb1 hb2 j (by omega) hj2
    · dsimp only
      rw [hba, hw]; exact h.len
    · dsimp only
      rw [hba, hr, if_pos rfl]; omega
    · dsimp only
      rw [hba, hr, if_pos rfl, ← Nat.add_assoc, List.take_add_one, hc2]
      exact List.Sublist.append h.sub (List.Sublist.refl _)
    · intro c hb1 hb2
      dsimp only
      rw [hfr]; exact h.live c hb1 hb2
  | peekNull b hc hf hn =>
    have := ffirst b hf
    subst this
    exact ⟨lb, b, hlast, .inl hf, h.fl, h.prod, h.nextTop, h.nextLt, h.rw, h.full, h.zero, h.cont, h.len, h.mono, h.sub, h.live, trivial⟩
  | peekSome b n hc hf hn =>
    have := ffirst b hf
    subst this
    refine ⟨lb, b, hlast, .inl hf, h.fl, h.prod, h.nextTop, h.nextLt, h.rw, h.full, h.zero, h.cont, h.len, h.mono, h.sub, h.live, ?_⟩
    show b < s.top
    refine Nat.lt_of_le_of_ne h.fl ?_
    rintro rfl
    rw [h.nextTop] at hn
    simp at hn
  | move b hc hf =>
    have := ffirst b hf
    subst this
    rw [hc] at hcons
    have hlt : b < s.top := hcons
    obtain ⟨hn, hbase⟩ := h.nextLt b (Nat.le_refl _) hlt
    have hz := h.zero (b + 1) (by omega) (by omega)
    have hrw := h.rw b (Nat.le_refl _) h.fl
    have hple : (s.blocks b).base + (s.blocks b).w ≤ s.pushed.length := by
      by_cases he : (s.blocks b).r = (s.blocks b).w
      · rw [← he]; exact h.mono
      · have := h.cont b (Nat.le_refl _) h.fl ((s.blocks b).w - 1) (by omega) (by omega)
        have := (List.getElem?_eq_some_iff.1 this).1
        omega
    refine ⟨lb, b + 1, hlast, .inl hn, hlt, h.prod, h.nextTop, ?_, ?_, h.full, ?_, ?_, h.len, ?_, ?_, ?_, ?_⟩
    · exact fun c h1 h2 => h.nextLt c (by omega) h2
    · exact fun c h1 h2 => h.rw c (by omega) h2
    · exact fun c h1 h2 => h.zero c (by omega) h2
    · exact fun c h1 h2 => h.cont c (by omega) h2
    · show (s.blocks (b + 1)).base + (s.blocks (b + 1)).r ≤ _
      rw [hz, hbase]; exact hple
    · show s.popped.Sublist (s.pushed.take ((s.blocks (b + 1)).base + (s.blocks (b + 1)).r))
      rw [hz, hbase]
      refine h.sub.trans ?_
      refine List.IsPrefix.sublist ?_
      exact List.take_prefix_take_left (by omega)
    · exact fun c h1 h2 => h.live c (by omega) h2
    · refine ⟨Nat.lt_succ_self _, ?_⟩
      refine h.live b (Nat.le_refl _) ?_
      have : s.top < s.nb := by
        revert hprod
        cases s.prod <;> intro hp <;> simp only [PInv] at hp <;> omega
      omega
  | del b hc =>
    rw [hc] at hcons
    obtain ⟨hb, hfree⟩ := hcons
    have hne : ∀ c, fb ≤ c → upd s.blocks b { s.blocks b with freed := true } c = s.blocks c := by
      intro c h1; simp only [upd]; rw [if_neg (by omega)]
    have htop := hne s.top h.fl
    have hff : s.first = some fb := by
      rcases h.first with hf | hf
      · exact hf
      · rw [hf.2.2.1] at hc; simp at hc
    refine ⟨lb, fb, hlast, .inl hff, h.fl, ?_, ?_, ?_, ?_, ?_, ?_, ?_, ?_, ?_, ?_, ?_, trivial⟩
    · show PInv N _ lb s.prod
      revert hprod
      cases s.prod with
      | link e n =>
        intro hp
        refine ⟨hp.1, hp.2.1, hp.2.2.1, ?_⟩
        dsimp only
        rw [htop, hne n (by have := hp.2.1; omega)]
        exact hp.2.2.2
      | advance e n =>
        intro hp
        refine ⟨hp.1, hp.2.1, hp.2.2.1, ?_⟩
        dsimp only
        rw [htop]; exact hp.2.2.2
      | write e =>
        intro hp
        refine ⟨hp.1, hp.2.1, ?_⟩
        dsimp only
        rw [htop]; exact hp.2.2
      | bump e =>
        intro hp
        refine ⟨hp.1, hp.2.1, ?_, ?_⟩
        · dsimp only
          rw [htop]; exact hp.2.2.1
        · dsimp only
          rw [htop]; exact hp.2.2.2
      | _ => intro hp; exact hp
    · dsimp only
      rw [htop]; exact h.nextTop
    · intro c hb1 hb2
      dsimp only
      rw [hne c hb1, hne (c + 1) (by omega)]; exact h.nextLt c hb1 hb2
    · intro c hb1 hb2
      dsimp only
      rw [hne c hb1]; exact h.rw c hb1 hb2
    · dsimp only
      rw [htop]; exact h.full
    · intro c hb1 hb2
      dsimp only
      rw [hne c (by omega)]; exact h.zero c hb1 hb2
    · intro c hb1 hb2
      dsimp only
      rw [hne c hb1]; exact h.cont c hb1 hb2
    · dsimp only
      rw [htop]; exact h.len
    · dsimp only
      rw [hne fb (Nat.le_refl _)]; exact h.mono
    · dsimp only
      rw [hne fb (Nat.le_refl _)]; exact h.sub
    · intro c hb1 hb2
      dsimp only
      rw [hne c hb1]; exact h.live c hb1 hb2

end Verif.Spsc
