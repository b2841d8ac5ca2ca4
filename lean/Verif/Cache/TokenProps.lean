import Verif.Cache.Model

/-! C74: the handles of `Token.cpp`. -/
namespace Verif.Cache
open Verif.Common

/-- thread `p` is responsible for handle `h` -/
def tcnt (h : Nat) : TPc → Nat
  | .opened j | .close j => if j = h then 1 else 0
  | _ => 0

structure TInv (s : TSt) : Prop where
  /-- every handle opened is published, closed, or in the hands of a thread, exactly one of these, once -/
  bal : ∀ h, (if s.cache = some h then 1 else 0) + s.closed[h]?.getD 0 + sumBy (tcnt h) s.ts = if h < s.closed.length then 1 else 0
  /-- a thread about to close lost against a published handle -/
  lost : ∀ (t h : Nat), s.ts[t]? = some (TPc.close h) → s.cache ≠ none
  last : ∀ (t h : Nat), s.ts[t]? = some (TPc.idle (some (some h))) → s.cache = some h

theorem tget_set {l : List TPc} {t u : Nat} {x y : TPc} (h : (l.set t x)[u]? = some y) : (u = t ∧ y = x) ∨ (u ≠ t ∧ l[u]? = some y) := by
  by_cases e : t = u
  · subst e
    rw [List.getElem?_set] at h
    split at h
    · split at h
      · cases h; exact .inl ⟨rfl, rfl⟩
      · cases h
    · exact absurd rfl ‹_›
  · rw [List.getElem?_set_ne e] at h; exact .inr ⟨fun h => e h.symm, h⟩

theorem tinv_init (n : Nat) : TInv (tinit n) := by
  have hr : ∀ (t : Nat) p, (List.replicate n (TPc.idle none))[t]? = some p → p = .idle none := fun t p h => List.eq_of_mem_replicate (List.mem_of_getElem? h)
  refine ⟨fun h => ?_, fun t h ht => ?_, fun t h ht => ?_⟩
  · have : sumBy (tcnt h) (List.replicate n (TPc.idle none)) = 0 := (sumBy_eq_zero _ _).2 fun x hx => by
      rw [List.eq_of_mem_replicate hx]; rfl
    simp [tinit, this]
  · have := hr t _ ht; cases this
  · have := hr t _ ht; cases this

theorem tinv_step {s s' : TSt} (I : TInv s) (h : TStep s s') : TInv s' := by
  have keep : ∀ (t : Nat) (p q : TPc), s.ts[t]? = some p → (∀ k, tcnt k p = 0) → (∀ k, tcnt k q = 0) → ∀ k, sumBy (tcnt k) (s.ts.set t q) = sumBy (tcnt k) s.ts := by
    intro t p q ht hp hq k
    have := sumBy_set (tcnt k) s.ts t q p ht
    rw [hp, hq] at this; omega
  cases h with
  | hit t h x ht hc =>
    refine ⟨fun k => ?_, fun u j hu => ?_, fun u j hu => ?_⟩
    · show _ + _ + sumBy (tcnt k) (s.ts.set t .ret) = _
      rw [keep t _ _ ht (fun _ => rfl) (fun _ => rfl)]; exact I.bal k
    · rcases tget_set hu with ⟨_, e⟩ | ⟨_, hu⟩
      · cases e
      · exact I.lost u j hu
    · rcases tget_set hu with ⟨_, e⟩ | ⟨_, hu⟩
      · cases e
      · exact I.last u j hu
  | fail t x ht hc =>
    refine ⟨fun k => ?_, fun u j hu => ?_, fun u j hu => ?_⟩
    · show _ + _ + sumBy (tcnt k) (s.ts.set t .ret) = _
      rw [keep t _ _ ht (fun _ => rfl) (fun _ => rfl)]; exact I.bal k
    · rcases tget_set hu with ⟨_, e⟩ | ⟨_, hu⟩
      · cases e
      · exact I.lost u j hu
    · rcases tget_set hu with ⟨_, e⟩ | ⟨_, hu⟩
      · cases e
      · exact I.last u j hu
  | ret t ht =>
    refine ⟨fun k => ?_, fun u j hu => ?_, fun u j hu => ?_⟩
    · show _ + _ + sumBy (tcnt k) (s.ts.set t (.idle (some s.cache))) = _
      rw [keep t _ _ ht (fun _ => rfl) (fun _ => rfl)]; exact I.bal k
    · rcases tget_set hu with ⟨_, e⟩ | ⟨_, hu⟩
      · cases e
      · exact I.lost u j hu
    · rcases tget_set hu with ⟨_, e⟩ | ⟨_, hu⟩
      · simp only [TPc.idle.injEq, Option.some.injEq] at e; exact e.symm
      · exact I.last u j hu
  | «open» t x ht hc =>
    refine ⟨fun k => ?_, fun u j hu => ?_, fun u j hu => ?_⟩
    · show _ + (s.closed ++ [0])[k]?.getD 0 + sumBy (tcnt k) (s.ts.set t (.opened s.closed.length)) = if k < (s.closed ++ [0]).length then 1 else 0
      have h1 := sumBy_set (tcnt k) s.ts t (.opened s.closed.length) _ ht
      have h2 := I.bal k
      simp only [tcnt] at h1
      by_cases e : k = s.closed.length
      · subst e
        rw [if_pos rfl] at h1
        rw [if_neg (Nat.lt_irrefl _)] at h2
        have h3 : (s.closed ++ [0])[s.closed.length]?.getD 0 = 0 := by simp
        have h4 : s.closed.length < (s.closed ++ [0]).length := by simp
        rw [h3]; simp only [h4, if_true]; omega
      · have h3 : (s.closed ++ [0])[k]?.getD 0 = s.closed[k]?.getD 0 := by
          rcases Nat.lt_or_ge k s.closed.length with h | h
          · rw [List.getElem?_append_left h]
          · rw [List.getElem?_eq_none (by simp; omega), List.getElem?_eq_none h]
        rw [h3]
        rw [if_neg (fun h => e h.symm)] at h1
        have h4 : (if k < (s.closed ++ [0]).length then 1 else 0) = if k < s.closed.length then 1 else 0 := by
          have : k < (s.closed ++ [0]).length ↔ k < s.closed.length := by simp; omega
          by_cases h : k < s.closed.length
          · rw [if_pos h, if_pos (this.2 h)]
          · rw [if_neg h, if_neg (fun h' => h (this.1 h'))]
        rw [h4, ← h2]; dsimp only; omega
    · rcases tget_set hu with ⟨_, e⟩ | ⟨_, hu⟩
      · cases e
      · exact I.lost u j hu
    · rcases tget_set hu with ⟨_, e⟩ | ⟨_, hu⟩
      · cases e
      · exact I.last u j hu
  | win t h ht hc =>
    refine ⟨fun k => ?_, fun u j hu => ?_, fun u j hu => ?_⟩
    · show (if some h = some k then 1 else 0) + _ + sumBy (tcnt k) (s.ts.set t .ret) = _
      have h1 := sumBy_set (tcnt k) s.ts t .ret _ ht
      have h2 := I.bal k
      simp only [tcnt] at h1
      rw [hc, if_neg (by simp)] at h2
      dsimp only
      by_cases e : h = k
      · subst e; rw [if_pos rfl] at h1 ⊢; omega
      · rw [if_neg e] at h1; rw [if_neg (by simp [e])]; omega
    · nofun
    · rcases tget_set hu with ⟨_, e⟩ | ⟨_, hu⟩
      · cases e
      · have := I.last u j hu; rw [hc] at this; cases this
  | lose t h j ht hc =>
    refine ⟨fun k => ?_, fun u j' hu => ?_, fun u j hu => ?_⟩
    · show _ + _ + sumBy (tcnt k) (s.ts.set t (.close h)) = _
      have h1 := sumBy_set (tcnt k) s.ts t (.close h) _ ht
      have h2 := I.bal k
      simp only [tcnt] at h1
      dsimp only; omega
    · dsimp only; rw [hc]; nofun
    · rcases tget_set hu with ⟨_, e⟩ | ⟨_, hu⟩
      · cases e
      · exact I.last u j hu
  | close t h ht =>
    refine ⟨fun k => ?_, fun u j hu => ?_, fun u j hu => ?_⟩
    · show _ + (s.closed.set h (s.closed[h]?.getD 0 + 1))[k]?.getD 0 + sumBy (tcnt k) (s.ts.set t .ret) = if k < (s.closed.set h (s.closed[h]?.getD 0 + 1)).length then 1 else 0
      rw [List.length_set]
      have h1 := sumBy_set (tcnt k) s.ts t .ret _ ht
      have h0 := le_sumBy (tcnt k) s.ts t _ ht
      have h2 := I.bal k
      simp only [tcnt] at h1 h0
      by_cases e : h = k
      · subst e
        rw [if_pos rfl] at h1 h0
        have hl : h < s.closed.length := by
          rcases Nat.lt_or_ge h s.closed.length with h' | h'
          · exact h'
          · rw [if_neg (c := h < s.closed.length) (by omega)] at h2; omega
        rw [List.getElem?_set_self hl]
        dsimp only [Option.getD_some]
        omega
      · rw [if_neg e] at h1
        rw [List.getElem?_set_ne e]
        dsimp only; omega
    · rcases tget_set hu with ⟨_, e⟩ | ⟨_, hu⟩
      · cases e
      · exact I.lost u j hu
    · rcases tget_set hu with ⟨_, e⟩ | ⟨_, hu⟩
      · cases e
      · exact I.last u j hu

theorem treach_inv {n s} (r : TReach n s) : TInv s := by
  induction r with
  | init => exact tinv_init n
  | step _ h ih => exact tinv_step ih h

/-- **C74.** In every schedule: no handle is closed twice, the published one is never closed, and once no thread is inside a call every handle that was opened is either published or closed. -/
theorem C74_token_handles {n s} (r : TReach n s) :
    (∀ h : Nat, s.closed[h]?.getD 0 ≤ 1) ∧ (∀ h : Nat, s.cache = some h → s.closed[h]? = some 0) ∧
    ((∀ p ∈ s.ts, ∃ x, p = TPc.idle x) → ∀ h < s.closed.length, s.cache = some h ∨ s.closed[h]? = some 1) := by
  have I := treach_inv r
  refine ⟨fun h => ?_, fun h hc => ?_, fun hp h hl => ?_⟩
  · have := I.bal h
    by_cases e : h < s.closed.length
    · rw [if_pos e] at this; omega
    · rw [if_neg e] at this; omega
  · have := I.bal h
    rw [hc, if_pos rfl] at this
    by_cases e : h < s.closed.length
    · rw [if_pos e] at this
      rw [List.getElem?_eq_getElem e] at this ⊢
      simp only [Option.getD_some] at this
      congr 1; omega
    · rw [if_neg e] at this; omega
  · have := I.bal h
    have hs : sumBy (tcnt h) s.ts = 0 := (sumBy_eq_zero _ _).2 fun p hp' => by obtain ⟨x, e⟩ := hp p hp'; rw [e]; rfl
    rw [if_pos hl, hs] at this
    by_cases e : s.cache = some h
    · exact .inl e
    · rw [if_neg e] at this
      right
      rw [List.getElem?_eq_getElem hl] at this ⊢
      simp only [Option.getD_some] at this
      congr 1; omega

theorem tcache_step {s s' : TSt} (h : TStep s s') {k : Nat} (hc : s.cache = some k) : s'.cache = some k := by
  cases h <;> first | exact hc | (rename_i h0; rw [hc] at h0; cases h0)

/-- **C74.** Once published the handle never changes: every later state has it, and every call that ends later returns it. -/
theorem C74_token_stable {s s' : TSt} (hs : TSteps s s') {h : Nat} (hc : s.cache = some h) :
    s'.cache = some h ∧ ∀ s'' (t : Nat) v, TStep s' s'' → s''.ts[t]? = some (TPc.idle (some v)) → s'.ts[t]? ≠ s''.ts[t]? → v = some h := by
  have key : s'.cache = some h := by
    induction hs with
    | refl => exact hc
    | step _ b ih => exact tcache_step b ih
  refine ⟨key, fun s'' t v st hv hne => ?_⟩
  cases st with
  | ret t' ht =>
    dsimp only at hv hne
    rcases tget_set hv with ⟨_, e⟩ | ⟨h1, h2⟩
    · simp only [TPc.idle.injEq, Option.some.injEq] at e; rw [e]; exact key
    · rw [h2] at hne; exact absurd hv.symm hne
  | hit t' h' x ht hc' => rcases tget_set hv with ⟨_, e⟩ | ⟨h1, h2⟩; cases e; rw [h2] at hne; exact absurd hv.symm hne
  | «open» t' x ht hc' => rcases tget_set hv with ⟨_, e⟩ | ⟨h1, h2⟩; cases e; rw [h2] at hne; exact absurd hv.symm hne
  | fail t' x ht hc' => rcases tget_set hv with ⟨_, e⟩ | ⟨h1, h2⟩; cases e; rw [h2] at hne; exact absurd hv.symm hne
  | win t' h' ht hc' => rcases tget_set hv with ⟨_, e⟩ | ⟨h1, h2⟩; cases e; rw [h2] at hne; exact absurd hv.symm hne
  | lose t' h' j ht hc' => rcases tget_set hv with ⟨_, e⟩ | ⟨h1, h2⟩; cases e; rw [h2] at hne; exact absurd hv.symm hne
  | close t' h' ht => rcases tget_set hv with ⟨_, e⟩ | ⟨h1, h2⟩; cases e; rw [h2] at hne; exact absurd hv.symm hne

/-- **C74.** A valid handle that a call returned is the published one, and it is open. -/
theorem C74_token_valid {n s} (r : TReach n s) {t h : Nat} (ht : s.ts[t]? = some (TPc.idle (some (some h)))) : s.cache = some h ∧ s.closed[h]? = some 0 := by
  have I := treach_inv r
  have := I.last t h ht
  exact ⟨this, (C74_token_handles r).2.1 h this⟩

/-- two threads open a handle each; the second one loses, closes its own and both return the first -/
example : ∃ s, TReach 2 s ∧ s.cache = some 0 ∧ s.closed = [0, 1] ∧ s.ts = [.idle (some (some 0)), .idle (some (some 0))] := by
  have r0 := TReach.init (n := 2)
  have r1 := r0.step (.open _ 0 none rfl rfl)
  have r2 := r1.step (.open _ 1 none rfl rfl)
  have r3 := r2.step (.win _ 0 0 rfl rfl)
  have r4 := r3.step (.lose _ 1 1 0 rfl rfl)
  have r5 := r4.step (.close _ 1 1 rfl)
  have r6 := r5.step (.ret _ 1 rfl)
  have r7 := r6.step (.ret _ 0 rfl)
  exact ⟨_, r7, rfl, rfl, rfl⟩

end Verif.Cache
