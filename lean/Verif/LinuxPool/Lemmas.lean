import Verif.LinuxPool.Model
import Verif.Common.Sum
/-! # Invariants of the Linux thread pool -/
namespace Verif.LinuxPool
open Verif.Common

/-! ## The number of threads -/

/-- the counter has been raised for a thread that does not exist yet -/
def al (p : PPc) : Nat := if p = .alloc then 1 else 0

/-- the call is past the counter -/
def past : PPc → Nat
  | .alloc => 1 | .made _ => 1 | .done _ => 1 | _ => 0

structure CInv (M : Nat) (s : St) : Prop where
  count : s.count = s.threads.length + sumBy al s.posters
  max : s.count ≤ M
  past : s.count ≤ sumBy past s.posters
  loop : ∀ (i c : Nat), s.posters[i]? = some (.loop c) → c < s.posters.length
  full : ∀ (i : Nat), s.posters[i]? = some .full → M < s.posters.length
  pend : s.pending ≠ [] → M < s.posters.length

theorem sumBy_lt {f : PPc → Nat} (hf : ∀ p, f p ≤ 1) {l : List PPc} {i : Nat} {p : PPc} (h : l[i]? = some p) (hp : f p = 0) : sumBy f l < l.length := by
  have hl : ∀ l : List PPc, sumBy f l ≤ l.length := by
    intro l
    induction l with
    | nil => simp
    | cons a l ih => have := hf a; simp; omega
  induction l generalizing i with
  | nil => simp at h
  | cons a l ih =>
    cases i with
    | zero => simp at h; subst h; have := hl l; simp; omega
    | succ i => simp at h; have := ih h; have := hf a; simp; omega

theorem past_le (p : PPc) : past p ≤ 1 := by cases p <;> simp [past]

theorem get_set {α : Type} {l : List α} {i j : Nat} {x y : α} (h : (l.set i x)[j]? = some y) : (i = j ∧ y = x) ∨ (i ≠ j ∧ l[j]? = some y) := by
  rw [List.getElem?_set] at h
  by_cases e : i = j
  · subst e
    simp at h
    exact .inl ⟨rfl, h.2.symm⟩
  · rw [if_neg e] at h
    exact .inr ⟨e, h⟩

/-- a call moves, nothing else of importance changes -/
theorem cinv_move {M : Nat} {s t : St} (i : CInv M s) {j : Nat} {p q : PPc} (hp : s.posters[j]? = some p) (ht : t.posters = s.posters.set j q)
    (hc : t.count = s.count) (hth : t.threads.length = s.threads.length) (hpe : t.pending ≠ [] → s.pending ≠ [] ∨ M < s.posters.length)
    (h1 : al q = al p) (h2 : past p ≤ past q) (hl : ∀ c, q = .loop c → c < s.posters.length) (hf : q = .full → M < s.posters.length) : CInv M t := by
  have e1 := sumBy_set al s.posters j q p hp
  have e2 := sumBy_set past s.posters j q p hp
  have hlen : t.posters.length = s.posters.length := by rw [ht]; simp
  refine ⟨?_, by rw [hc]; exact i.max, ?_, ?_, ?_, ?_⟩
  · rw [hc, hth, ht]; have := i.count; omega
  · rw [hc, ht]; have := i.past; omega
  · intro a c h
    rw [ht] at h
    rw [hlen]
    rcases get_set h with ⟨_, e⟩ | ⟨_, e⟩
    · exact hl c e.symm
    · exact i.loop a c e
  · intro a h
    rw [ht] at h
    rw [hlen]
    rcases get_set h with ⟨_, e⟩ | ⟨_, e⟩
    · exact hf e.symm
    · exact i.full a e
  · intro h
    rw [hlen]
    rcases hpe h with h | h
    · exact i.pend h
    · exact h

/-- a thread moves -/
theorem cinv_thread {M : Nat} {s t : St} (i : CInv M s) (h1 : t.posters = s.posters) (h2 : t.count = s.count) (h3 : t.threads.length = s.threads.length)
    (h4 : t.pending ≠ [] → s.pending ≠ []) : CInv M t :=
  ⟨by rw [h1, h2, h3]; exact i.count, by rw [h2]; exact i.max, by rw [h1, h2]; exact i.past, by rw [h1]; exact i.loop, by rw [h1]; exact i.full,
    fun h => by rw [h1]; exact i.pend (h4 h)⟩

theorem cinv_step {M : Nat} {multi l : Bool} {s t : St} (h : Step M multi l s t) (i : CInv M s) : CInv M t := by
  cases h with
  | call =>
    refine ⟨?_, i.max, ?_, ?_, ?_, ?_⟩
    · simp only [sumBy_append]; have := i.count; simp [al] at this ⊢; omega
    · simp only [sumBy_append]; have := i.past; simp [past] at this ⊢; omega
    · intro a c h
      simp only [List.length_append, List.length_cons, List.length_nil]
      rw [List.getElem?_append] at h
      split at h
      · have := i.loop a c h; omega
      · cases hh : a - s.posters.length with
        | zero => rw [hh] at h; simp at h
        | succ n => rw [hh] at h; simp at h
    · intro a h
      simp only [List.length_append, List.length_cons, List.length_nil]
      rw [List.getElem?_append] at h
      split at h
      · have := i.full a h; omega
      · cases hh : a - s.posters.length with
        | zero => rw [hh] at h; simp at h
        | succ n => rw [hh] at h; simp at h
    · intro h
      simp only [List.length_append, List.length_cons, List.length_nil]
      have := i.pend h
      omega
  | popNull _ j hp hi => exact cinv_move i hp rfl rfl rfl .inl rfl (Nat.zero_le _) (fun _ e => by cases e) (fun e => by cases e)
  | popHead _ j a hp hi hm => exact cinv_move i hp rfl rfl rfl .inl rfl (Nat.zero_le _) (fun _ e => by cases e) (fun e => by cases e)
  | popRead _ j a hp => exact cinv_move i hp rfl rfl rfl .inl rfl (Nat.zero_le _) (fun _ e => by cases e) (fun e => by cases e)
  | popCas _ j a n hp hi => exact cinv_move i hp rfl rfl rfl .inl rfl (Nat.zero_le _) (fun _ e => by cases e) (fun e => by cases e)
  | popFail _ j a n b hp hi hb => exact cinv_move i hp rfl rfl rfl .inl rfl (Nat.zero_le _) (fun _ e => by cases e) (fun e => by cases e)
  | popFailNull _ j a n hp hi => exact cinv_move i hp rfl rfl rfl .inl rfl (Nat.zero_le _) (fun _ e => by cases e) (fun e => by cases e)
  | hand _ j a th hp ht => exact cinv_move i hp rfl rfl (by simp) .inl rfl (Nat.zero_le _) (fun _ e => by cases e) (fun e => by cases e)
  | kill _ j a th hp ht hm hh => exact cinv_move i hp rfl rfl (by simp) .inl rfl (Nat.zero_le _) (fun _ e => by cases e) (fun e => by cases e)
  | killed _ j a th hp ht hm => exact cinv_move i hp rfl rfl rfl .inl rfl (Nat.zero_le _) (fun _ e => by cases e) (fun e => by cases e)
  | count _ j hp =>
    have := sumBy_lt past_le hp rfl
    have h2 := i.past
    exact cinv_move i hp rfl rfl rfl .inl rfl (Nat.zero_le _) (fun _ e => by injection e with e; omega) (fun e => by cases e)
  | full _ j c hp hc =>
    exact cinv_move i hp rfl rfl rfl .inl rfl (Nat.zero_le _) (fun _ e => by cases e) (fun e => Nat.lt_of_le_of_lt hc (i.loop _ _ hp))
  | push _ j hp => exact cinv_move i hp rfl rfl rfl (fun _ => .inr (i.full _ hp)) rfl (Nat.zero_le _) (fun _ e => by cases e) (fun e => by cases e)
  | pushFail _ j hp => exact cinv_move i hp rfl rfl rfl .inl rfl (Nat.zero_le _) (fun _ e => by cases e) (fun e => by cases e)
  | casFail _ j c hp hc hn =>
    have := sumBy_lt past_le hp rfl
    have h2 := i.past
    exact cinv_move i hp rfl rfl rfl .inl rfl (Nat.zero_le _) (fun _ e => by injection e with e; omega) (fun e => by cases e)
  | cas _ j c hp hc hn =>
    have e1 := sumBy_set al s.posters j .alloc _ hp
    have e2 := sumBy_set past s.posters j .alloc _ hp
    simp [al] at e1
    simp [past] at e2
    have b := cinv_move (t := { s with posters := s.posters.set j .full }) i hp rfl rfl rfl .inl rfl (Nat.zero_le _) (fun _ e => by cases e)
    have h1 := i.count
    have h2 := i.past
    refine ⟨?_, ?_, ?_, ?_, ?_, ?_⟩
    · simp [al] at h1 ⊢; omega
    · simp; omega
    · simp [past] at h2 ⊢; omega
    · intro a c h
      simp only [List.length_set]
      rcases get_set h with ⟨_, e⟩ | ⟨_, e⟩
      · cases e
      · exact i.loop a c e
    · intro a h
      simp only [List.length_set]
      rcases get_set h with ⟨_, e⟩ | ⟨_, e⟩
      · cases e
      · exact i.full a e
    · intro h
      simp only [List.length_set]
      exact i.pend h
  | allocFail _ j hp =>
    have e1 := sumBy_set al s.posters j (.done false) _ hp
    have e2 := sumBy_set past s.posters j (.done false) _ hp
    simp [al] at e1
    simp [past] at e2
    have h1 := i.count
    have h2 := i.past
    have h3 := i.max
    refine ⟨?_, ?_, ?_, ?_, ?_, ?_⟩
    · simp [al] at h1 ⊢; omega
    · simp; omega
    · simp [past] at h2 ⊢; omega
    · intro a c h
      simp only [List.length_set]
      rcases get_set h with ⟨_, e⟩ | ⟨_, e⟩
      · cases e
      · exact i.loop a c e
    · intro a h
      simp only [List.length_set]
      rcases get_set h with ⟨_, e⟩ | ⟨_, e⟩
      · cases e
      · exact i.full a e
    · intro h
      simp only [List.length_set]
      exact i.pend h
  | create _ j hp =>
    have e1 := sumBy_set al s.posters j (.made s.threads.length) _ hp
    have e2 := sumBy_set past s.posters j (.made s.threads.length) _ hp
    simp [al] at e1
    simp [past] at e2
    have h1 := i.count
    have h2 := i.past
    refine ⟨?_, i.max, ?_, ?_, ?_, ?_⟩
    · simp [al] at h1 ⊢; omega
    · simp [past] at h2 ⊢; omega
    · intro a c h
      simp only [List.length_set]
      rcases get_set h with ⟨_, e⟩ | ⟨_, e⟩
      · cases e
      · exact i.loop a c e
    · intro a h
      simp only [List.length_set]
      rcases get_set h with ⟨_, e⟩ | ⟨_, e⟩
      · cases e
      · exact i.full a e
    · intro h
      simp only [List.length_set]
      exact i.pend h
  | created _ j a th hp ht => exact cinv_move i hp rfl rfl (by simp) .inl rfl (Nat.le_refl _) (fun _ e => by cases e) (fun e => by cases e)
  | run _ a th x ht hpc hs => exact cinv_thread i rfl rfl (by simp) id
  | runNone _ a th ht hpc hs => exact cinv_thread i rfl rfl (by simp) id
  | clear _ a th ht hpc => exact cinv_thread i rfl rfl (by simp) id
  | take _ a th x rest ht hpc hs => exact cinv_thread i rfl rfl (by simp) (fun _ => by rw [hs]; simp)
  | took _ a th ht hpc => exact cinv_thread i rfl rfl (by simp) id
  | park _ a th ht hpc hs => exact cinv_thread i rfl rfl (by simp) id
  | mask _ a th ht hpc => exact cinv_thread i rfl rfl (by simp) id
  | wake _ a th ht hpc hs => exact cinv_thread i rfl rfl (by simp) id

theorem cinv_reach {M : Nat} {multi : Bool} {s : St} (h : Reach M multi s) : CInv M s := by
  induction h with
  | init => exact ⟨rfl, Nat.zero_le _, Nat.zero_le _, fun _ _ h => (by simp [init] at h), fun _ h => (by simp [init] at h), fun h => absurd rfl h⟩
  | step _ hs ih => exact cinv_step hs ih

/-! ## Who owns a thread -/

def g (a : Nat) (p : PPc) : Nat := if p = .got a then 1 else 0
def k (a : Nat) (p : PPc) : Nat := if p = .kill a then 1 else 0

/-- the thread is on the stack or in the hands of a caller -/
def TPc.parked : TPc → Prop
  | .idle1 => True
  | .wait => True
  | _ => False

structure TOk (cr : Bool) (ic gs ks : Nat) (th : Thr) : Prop where
  active : ¬ th.pc.parked → ic + gs + ks = 0 ∧ th.sig = false
  parked : th.pc.parked → ic + gs + ks + th.sig.toNat ≤ 1
  known : th.pc.parked → cr = false → ic + gs + ks + th.sig.toNat = 1
  empty : th.pc.parked → 0 < ic + gs → th.slot = none
  drained : th.pc = .drain ∨ th.pc = .cb2 → th.slot = none
  busy : th.pc = .cb → th.slot ≠ none

def POk (idle : List Nat) : PPc → Prop
  | .popAt a => a ∈ idle
  | .popNext a n => a ∈ idle ∧ n = succ a idle
  | _ => True

structure OInv (s : St) : Prop where
  thr : ∀ a th, s.threads[a]? = some th → TOk s.crashed (s.idle.count a) (sumBy (g a) s.posters) (sumBy (k a) s.posters) th
  out : ∀ a, s.threads.length ≤ a → s.idle.count a + sumBy (g a) s.posters + sumBy (k a) s.posters = 0
  pop : ∀ (i : Nat) p, s.posters[i]? = some p → POk s.idle p
  single : sumBy PPc.popping s.posters ≤ 1

theorem oinv_le {s : St} (i : OInv s) (a : Nat) : s.idle.count a + sumBy (g a) s.posters + sumBy (k a) s.posters ≤ 1 := by
  by_cases h : a < s.threads.length
  · have t := i.thr a s.threads[a] (by rw [List.getElem?_eq_getElem h])
    by_cases hp : (s.threads[a]).pc.parked
    · have := t.parked hp; omega
    · have := (t.active hp).1; omega
  · have := i.out a (by omega); omega

theorem succ_cons {a b : Nat} {l : List Nat} (h : b ≠ a) : succ a (b :: l) = succ a l := by
  simp [succ, List.dropWhile_cons, h]

theorem succ_head {a : Nat} {l : List Nat} : succ a (a :: l) = l.head? := by
  simp [succ, List.dropWhile_cons]

/-- a single `Pop` takes the head off -/
theorem from_succ {a : Nat} {l : List Nat} (hd : ∀ x, (a :: l).count x ≤ 1) : from_ (succ a (a :: l)) (a :: l) = l := by
  rw [succ_head]
  cases l with
  | nil => rfl
  | cons b r =>
    have hab : a ≠ b := by
      intro e
      have := hd a
      subst e
      simp at this
    simp [from_, List.dropWhile_cons, hab]

/-- a call moves without touching a thread or the stack -/
theorem oinv_move {s t : St} (i : OInv s) {j : Nat} {p q : PPc} (hp : s.posters[j]? = some p) (ht : t.posters = s.posters.set j q)
    (hi : t.idle = s.idle) (hth : t.threads = s.threads) (hc : t.crashed = s.crashed)
    (hg : ∀ a, g a q = g a p) (hk : ∀ a, k a q = k a p) (hq : POk s.idle q) (hs : q.popping = p.popping ∨ q.popping = 0 ∨ sumBy PPc.popping s.posters = 0)
    (hq1 : q.popping ≤ 1) : OInv t := by
  have e1 : ∀ a, sumBy (g a) t.posters = sumBy (g a) s.posters := fun a => by
    have := sumBy_set (g a) s.posters j q p hp; rw [ht]; have := hg a; omega
  have e2 : ∀ a, sumBy (k a) t.posters = sumBy (k a) s.posters := fun a => by
    have := sumBy_set (k a) s.posters j q p hp; rw [ht]; have := hk a; omega
  have e3 := sumBy_set PPc.popping s.posters j q p hp
  refine ⟨fun a th h => ?_, fun a h => ?_, fun a r h => ?_, ?_⟩
  · rw [hth] at h
    rw [hc, hi, e1, e2]
    exact i.thr a th h
  · rw [hth] at h
    rw [hi, e1, e2]
    exact i.out a h
  · rw [ht] at h
    rw [hi]
    rcases get_set h with ⟨_, e⟩ | ⟨_, e⟩
    · rw [e]; exact hq
    · exact i.pop a r e
  · rw [ht]
    have := i.single
    rcases hs with h | h | h <;> omega

/-- a thread moves by itself -/
theorem oinv_thread {s t : St} (i : OInv s) {a : Nat} {th th' : Thr} (ha : s.threads[a]? = some th) (ht : t.threads = s.threads.set a th')
    (hi : t.idle = s.idle) (hp : t.posters = s.posters) (hc : t.crashed = s.crashed)
    (hok : ∀ ic gs ks, TOk s.crashed ic gs ks th → TOk s.crashed ic gs ks th') : OInv t := by
  refine ⟨fun b r h => ?_, fun b h => ?_, fun b r h => ?_, ?_⟩
  · rw [ht] at h
    rw [hc, hi, hp]
    rcases get_set h with ⟨e, e'⟩ | ⟨_, e⟩
    · subst e; rw [e']; exact hok _ _ _ (i.thr _ _ ha)
    · exact i.thr b r e
  · rw [hi, hp]
    rw [ht] at h
    exact i.out b (by simpa using h)
  · rw [hi]
    rw [hp] at h
    exact i.pop b r h
  · rw [hp]; exact i.single

theorem head_mem {l : List Nat} {a : Nat} (h : l.head? = some a) : a ∈ l := by
  cases l with
  | nil => simp at h
  | cons b l => simp at h; subst h; simp

theorem sum_zero {f : PPc → Nat} {l : List PPc} (h : ∀ (j : Nat) p, l[j]? = some p → f p = 0) : sumBy f l = 0 := by
  rw [sumBy_eq_zero]
  intro x hx
  obtain ⟨j, hj⟩ := List.getElem?_of_mem hx
  exact h j x hj

theorem g_self (a : Nat) : g a (.got a) = 1 := by simp [g]
theorem k_self (a : Nat) : k a (.kill a) = 1 := by simp [k]
theorem g_other {a b : Nat} (h : b ≠ a) : g a (.got b) = 0 := by simp [g, h]
theorem k_other {a b : Nat} (h : b ≠ a) : k a (.kill b) = 0 := by simp [k, h]

theorem oinv_step {M : Nat} {l : Bool} {s t : St} (h : Step M false l s t) (i : OInv s) : OInv t := by
  cases h with
  | call =>
    refine ⟨fun a th h => ?_, fun a h => ?_, fun a p h => ?_, ?_⟩
    · simpa [sumBy_append, g, k] using i.thr a th h
    · have := i.out a h; simp only [sumBy_append]; simp [g, k] at this ⊢; omega
    · rw [List.getElem?_append] at h
      split at h
      · exact i.pop a p h
      · cases hh : a - s.posters.length with
        | zero => rw [hh] at h; simp at h; subst h; trivial
        | succ n => rw [hh] at h; simp at h
    · have := i.single
      simp only [sumBy_append]
      simp [PPc.popping] at this ⊢
      omega
  | popNull _ j hp hi => exact oinv_move i hp rfl rfl rfl rfl (fun _ => by simp [g]) (fun _ => by simp [k]) trivial (.inl rfl) (by decide)
  | popHead _ j a hp hi hm =>
    exact oinv_move i hp rfl rfl rfl rfl (fun _ => by simp [g]) (fun _ => by simp [k]) (head_mem hi) (.inr (.inr (sum_zero (hm rfl)))) (Nat.le_refl _)
  | popRead _ j a hp =>
    exact oinv_move i hp rfl rfl rfl rfl (fun _ => by simp [g]) (fun _ => by simp [k]) ⟨i.pop _ _ hp, rfl⟩ (.inl rfl) (Nat.le_refl _)
  | popFail _ j a n b hp hi hb =>
    exact oinv_move i hp rfl rfl rfl rfl (fun _ => by simp [g]) (fun _ => by simp [k]) (head_mem hi) (.inl rfl) (Nat.le_refl _)
  | popFailNull _ j a n hp hi =>
    exact oinv_move i hp rfl rfl rfl rfl (fun _ => by simp [g]) (fun _ => by simp [k]) trivial (.inr (.inl rfl)) (by decide)
  | count _ j hp => exact oinv_move i hp rfl rfl rfl rfl (fun _ => by simp [g]) (fun _ => by simp [k]) trivial (.inl rfl) (Nat.zero_le _)
  | full _ j c hp hc => exact oinv_move i hp rfl rfl rfl rfl (fun _ => by simp [g]) (fun _ => by simp [k]) trivial (.inl rfl) (by decide)
  | push _ j hp => exact oinv_move i hp rfl rfl rfl rfl (fun _ => by simp [g]) (fun _ => by simp [k]) trivial (.inl rfl) (by decide)
  | pushFail _ j hp => exact oinv_move i hp rfl rfl rfl rfl (fun _ => by simp [g]) (fun _ => by simp [k]) trivial (.inl rfl) (by decide)
  | cas _ j c hp hc hn => exact oinv_move i hp rfl rfl rfl rfl (fun _ => by simp [g]) (fun _ => by simp [k]) trivial (.inl rfl) (by decide)
  | casFail _ j c hp hc hn => exact oinv_move i hp rfl rfl rfl rfl (fun _ => by simp [g]) (fun _ => by simp [k]) trivial (.inl rfl) (Nat.zero_le _)
  | allocFail _ j hp => exact oinv_move i hp rfl rfl rfl rfl (fun _ => by simp [g]) (fun _ => by simp [k]) trivial (.inl rfl) (by decide)
  | popCas _ j a n hp hi =>
    obtain ⟨hm, hn⟩ := i.pop _ _ hp
    obtain ⟨r, hr⟩ : ∃ r, s.idle = a :: r := by
      cases hs : s.idle with
      | nil => rw [hs] at hi; simp at hi
      | cons b r => rw [hs] at hi; simp at hi; subst hi; exact ⟨r, rfl⟩
    have hfr : from_ n s.idle = r := by
      rw [hn, hr]
      apply from_succ
      intro x
      have := oinv_le i x
      rw [hr] at this
      omega
    have e1 := fun b => sumBy_set (g b) s.posters j (.got a) _ hp
    have e2 := fun b => sumBy_set (k b) s.posters j (.got a) _ hp
    have e3 := sumBy_set PPc.popping s.posters j (.got a) _ hp
    have hcnt : ∀ b, s.idle.count b + sumBy (g b) s.posters = r.count b + sumBy (g b) (s.posters.set j (.got a)) := by
      intro b
      have := e1 b
      rw [hr]
      by_cases hb : a = b
      · subst hb
        simp [g] at this ⊢
        omega
      · rw [List.count_cons_of_ne (by exact hb)]
        simp [g, hb] at this ⊢
        omega
    have hk : ∀ b, sumBy (k b) (s.posters.set j (.got a)) = sumBy (k b) s.posters := by
      intro b
      have := e2 b
      simp [k] at this ⊢
      omega
    simp only [PPc.popping] at e3
    have hs := i.single
    refine ⟨fun b th h => ?_, fun b h => ?_, fun b p h => ?_, ?_⟩
    · simp only [hfr]
      have t := i.thr b th h
      rw [hk b]
      have hc := hcnt b
      refine ⟨fun q => ?_, fun q => ?_, fun q c => ?_, fun q c => ?_, t.drained, t.busy⟩
      · have := t.active q; exact ⟨by omega, this.2⟩
      · have := t.parked q; omega
      · have := t.known q c; omega
      · exact t.empty q (by omega)
    · simp only [hfr]
      rw [hk b]
      have hc := hcnt b
      have := i.out b h
      omega
    · rcases get_set h with ⟨_, e⟩ | ⟨hne, e⟩
      · rw [e]; trivial
      · have hz : p.popping = 0 := by
          have := add_le_sumBy PPc.popping s.posters j b _ _ hne hp e
          have h1 : PPc.popping (.popNext a n) = 1 := rfl
          omega
        cases p <;> simp_all [PPc.popping, POk]
    · show sumBy PPc.popping (s.posters.set j (.got a)) ≤ 1
      omega
  | hand _ j a th hp ht =>
    have e1 := fun b => sumBy_set (g b) s.posters j (.kill a) _ hp
    have e2 := fun b => sumBy_set (k b) s.posters j (.kill a) _ hp
    have e3 := sumBy_set PPc.popping s.posters j (.kill a) _ hp
    have hg1 : 1 ≤ sumBy (g a) s.posters := by have := le_sumBy (g a) s.posters j _ hp; rw [g_self] at this; exact this
    simp only [PPc.popping] at e3
    refine ⟨fun b r h => ?_, fun b h => ?_, fun b p h => ?_, ?_⟩
    · rcases get_set h with ⟨e, e'⟩ | ⟨hne, e⟩
      · subst e
        have t := i.thr _ _ ht
        have f1 := e1 a
        have f2 := e2 a
        simp [g] at f1
        simp [k] at f2
        have hpk : th.pc.parked := by
          refine Classical.byContradiction fun hn => ?_
          have := (t.active hn).1
          omega
        have hle := t.parked hpk
        rw [e']
        have hsum : sumBy (g a) (s.posters.set j (.kill a)) + sumBy (k a) (s.posters.set j (.kill a)) = sumBy (g a) s.posters + sumBy (k a) s.posters := by
          simp only [g, k] at *
          omega
        have hg0 : s.idle.count a + sumBy (g a) (s.posters.set j (.kill a)) = 0 := by
          simp only [g] at *
          omega
        refine ⟨fun q => absurd hpk q, fun q => ?_, fun q c => ?_, fun q c => ?_, fun q => ?_, fun _ => by simp⟩
        · show _ + _ + _ + th.sig.toNat ≤ 1
          simp only
          omega
        · have := t.known hpk c
          show _ + _ + _ + th.sig.toNat = 1
          simp only
          omega
        · simp only at c
          omega
        · exfalso
          simp only at q
          rcases q with q | q <;> rw [q] at hpk <;> exact hpk
      · have f1 := e1 b
        have f2 := e2 b
        simp only [g_other hne, k_other hne] at f1 f2
        have : g b (.kill a) = 0 := by simp [g]
        have : k b (.got a) = 0 := by simp [k]
        have h1 : sumBy (g b) (s.posters.set j (.kill a)) = sumBy (g b) s.posters := by omega
        have h2 : sumBy (k b) (s.posters.set j (.kill a)) = sumBy (k b) s.posters := by omega
        rw [h1, h2]
        exact i.thr b r e
    · simp only [List.length_set] at h
      have hne : a ≠ b := by
        intro e
        subst e
        rw [List.getElem?_eq_none h] at ht
        cases ht
      have f1 := e1 b
      have f2 := e2 b
      simp only [g_other hne, k_other hne] at f1 f2
      have := i.out b h
      have : g b (.kill a) = 0 := by simp [g]
      have : k b (.got a) = 0 := by simp [k]
      show s.idle.count b + sumBy (g b) (s.posters.set j (.kill a)) + sumBy (k b) (s.posters.set j (.kill a)) = 0
      omega
    · rcases get_set h with ⟨_, e⟩ | ⟨_, e⟩
      · rw [e]; trivial
      · exact i.pop b p e
    · show sumBy PPc.popping (s.posters.set j (.kill a)) ≤ 1
      have := i.single
      omega
  | kill _ j a th hp ht hm hh =>
    have e1 := fun b => sumBy_set (g b) s.posters j (.done true) _ hp
    have e2 := fun b => sumBy_set (k b) s.posters j (.done true) _ hp
    have e3 := sumBy_set PPc.popping s.posters j (.done true) _ hp
    have hk1 : 1 ≤ sumBy (k a) s.posters := by have := le_sumBy (k a) s.posters j _ hp; rw [k_self] at this; exact this
    simp only [PPc.popping] at e3
    have hg : ∀ b, sumBy (g b) (s.posters.set j (.done true)) = sumBy (g b) s.posters := fun b => by
      have := e1 b; simp [g] at this ⊢; omega
    have hka : sumBy (k a) (s.posters.set j (.done true)) + 1 = sumBy (k a) s.posters := by
      have := e2 a; simp [k] at this ⊢; omega
    have hkb : ∀ b, a ≠ b → sumBy (k b) (s.posters.set j (.done true)) = sumBy (k b) s.posters := fun b hb => by
      have := e2 b; simp [k, hb] at this ⊢; omega
    refine ⟨fun b r h => ?_, fun b h => ?_, fun b p h => ?_, ?_⟩
    · rcases get_set h with ⟨e, e'⟩ | ⟨hne, e⟩
      · subst e
        have t := i.thr _ _ ht
        have hpk : th.pc.parked := by
          refine Classical.byContradiction fun hn => ?_
          have := (t.active hn).1
          omega
        have hle := t.parked hpk
        rw [e', hg]
        refine ⟨fun q => absurd hpk q, fun q => ?_, fun q c => ?_, fun q c => ?_, fun q => ?_, fun q => ?_⟩
        · simp
          omega
        · have := t.known hpk c
          simp
          omega
        · simp only at c
          omega
        · exact t.drained q
        · exact t.busy q
      · rw [hg, hkb b hne]
        exact i.thr b r e
    · simp only [List.length_set] at h
      have hne : a ≠ b := by
        intro e
        subst e
        rw [List.getElem?_eq_none h] at ht
        cases ht
      show s.idle.count b + sumBy (g b) (s.posters.set j (.done true)) + sumBy (k b) (s.posters.set j (.done true)) = 0
      rw [hg, hkb b hne]
      exact i.out b h
    · rcases get_set h with ⟨_, e⟩ | ⟨_, e⟩
      · rw [e]; trivial
      · exact i.pop b p e
    · show sumBy PPc.popping (s.posters.set j (.done true)) ≤ 1
      have := i.single
      omega
  | killed _ j a th hp ht hm =>
    have e1 := fun b => sumBy_set (g b) s.posters j (.done true) _ hp
    have e2 := fun b => sumBy_set (k b) s.posters j (.done true) _ hp
    have e3 := sumBy_set PPc.popping s.posters j (.done true) _ hp
    simp only [PPc.popping] at e3
    have hg : ∀ b, sumBy (g b) (s.posters.set j (.done true)) = sumBy (g b) s.posters := fun b => by
      have := e1 b; simp [g] at this ⊢; omega
    have hkb : ∀ b, sumBy (k b) (s.posters.set j (.done true)) ≤ sumBy (k b) s.posters := fun b => by
      have := e2 b; simp [k] at this ⊢; omega
    refine ⟨fun b r h => ?_, fun b h => ?_, fun b p h => ?_, ?_⟩
    · have t := i.thr b r h
      have hb := hkb b
      rw [hg]
      refine ⟨fun q => ?_, fun q => ?_, fun q c => ?_, t.empty, t.drained, t.busy⟩
      · have := t.active q; exact ⟨by simp only; omega, this.2⟩
      · have := t.parked q; simp only; omega
      · cases c
    · show s.idle.count b + sumBy (g b) (s.posters.set j (.done true)) + sumBy (k b) (s.posters.set j (.done true)) = 0
      have hb := hkb b
      have := i.out b h
      rw [hg]
      omega
    · rcases get_set h with ⟨_, e⟩ | ⟨_, e⟩
      · rw [e]; trivial
      · exact i.pop b p e
    · show sumBy PPc.popping (s.posters.set j (.done true)) ≤ 1
      have := i.single
      omega
  | create _ j hp =>
    have b := oinv_move (t := { s with posters := s.posters.set j (.made s.threads.length) }) i hp rfl rfl rfl rfl (fun _ => by simp [g]) (fun _ => by simp [k])
      trivial (.inl rfl) (Nat.zero_le _)
    refine ⟨fun a th h => ?_, fun a h => ?_, b.pop, b.single⟩
    · rw [List.getElem?_append] at h
      split at h
      · exact b.thr a th h
      · rename_i hge
        have ho := b.out a (by simp only; omega)
        have hth : th = { slot := some j } := by
          cases hh : a - s.threads.length with
          | zero => rw [hh] at h; simpa using h.symm
          | succ n => rw [hh] at h; simp at h
        rw [hth]
        exact ⟨fun _ => ⟨ho, rfl⟩, fun q => q.elim, fun q => q.elim, fun q => q.elim, fun q => (by rcases q with q | q <;> cases q), fun q => (by cases q)⟩
    · simp only [List.length_append, List.length_cons, List.length_nil] at h
      exact b.out a (by simp only; omega)
  | created _ j a th hp ht =>
    have b := oinv_move (t := { s with posters := s.posters.set j (.done true) }) i hp rfl rfl rfl rfl (fun _ => by simp [g]) (fun _ => by simp [k])
      trivial (.inl rfl) (by decide)
    exact oinv_thread (s := { s with posters := s.posters.set j (.done true) }) b (th' := { th with handle := true }) ht rfl rfl rfl rfl
      (fun ic gs ks t => ⟨t.active, t.parked, t.known, t.empty, t.drained, t.busy⟩)
  | run _ a th x ht hpc hs =>
    exact oinv_thread i ht rfl rfl rfl rfl (fun ic gs ks t =>
      ⟨fun _ => t.active (by rw [hpc]; exact id), fun q => q.elim, fun q => q.elim, fun q => q.elim, fun q => (by rcases q with q | q <;> cases q),
        fun _ => (by simp only; rw [hs]; simp)⟩)
  | runNone _ a th ht hpc hs =>
    exact oinv_thread i ht rfl rfl rfl rfl (fun ic gs ks t =>
      ⟨fun _ => t.active (by rw [hpc]; exact id), fun q => q.elim, fun q => q.elim, fun q => q.elim, fun _ => hs, fun q => (by cases q)⟩)
  | clear _ a th ht hpc =>
    exact oinv_thread i ht rfl rfl rfl rfl (fun ic gs ks t =>
      ⟨fun _ => t.active (by rw [hpc]; exact id), fun q => q.elim, fun q => q.elim, fun q => q.elim, fun _ => rfl, fun q => (by cases q)⟩)
  | take _ a th x rest ht hpc hs =>
    exact oinv_thread i ht rfl rfl rfl rfl (fun ic gs ks t =>
      ⟨fun _ => t.active (by rw [hpc]; exact id), fun q => q.elim, fun q => q.elim, fun q => q.elim, fun _ => t.drained (.inl hpc), fun q => (by cases q)⟩)
  | took _ a th ht hpc =>
    exact oinv_thread i ht rfl rfl rfl rfl (fun ic gs ks t =>
      ⟨fun _ => t.active (by rw [hpc]; exact id), fun q => q.elim, fun q => q.elim, fun q => q.elim, fun _ => t.drained (.inr hpc), fun q => (by cases q)⟩)
  | park _ a th ht hpc hs =>
    have ta := i.thr _ _ ht
    have hz := ta.active (by rw [hpc]; exact id)
    have hna : a ∉ s.idle := by
      intro hm
      have := List.count_pos_iff.2 hm
      omega
    refine ⟨fun b r h => ?_, fun b h => ?_, fun b p h => ?_, i.single⟩
    · rcases get_set h with ⟨e, e'⟩ | ⟨hne, e⟩
      · subst e
        rw [e']
        refine ⟨fun q => absurd trivial q, fun q => ?_, fun q c => ?_, fun q c => ta.drained (.inl hpc), fun q => (by rcases q with q | q <;> cases q),
          fun q => (by cases q)⟩
        · simp [hz.2]
          omega
        · simp [hz.2]
          omega
      · simp only
        rw [List.count_cons_of_ne (by exact hne)]
        exact i.thr b r e
    · simp only [List.length_set] at h
      have hne : a ≠ b := by
        intro e
        subst e
        rw [List.getElem?_eq_none h] at ht
        cases ht
      simp only
      rw [List.count_cons_of_ne (by exact hne)]
      exact i.out b h
    · have := i.pop b p h
      cases p with
      | popAt c => exact List.mem_cons_of_mem _ this
      | popNext c n =>
        obtain ⟨h1, h2⟩ := this
        refine ⟨List.mem_cons_of_mem _ h1, ?_⟩
        rw [h2, succ_cons]
        intro e
        subst e
        exact hna h1
      | _ => trivial
  | mask _ a th ht hpc =>
    exact oinv_thread i ht rfl rfl rfl rfl (fun ic gs ks t =>
      ⟨fun q => absurd trivial q, fun _ => t.parked (by rw [hpc]; trivial), fun _ => t.known (by rw [hpc]; trivial), fun _ => t.empty (by rw [hpc]; trivial),
        fun q => (by rcases q with q | q <;> cases q), fun q => (by cases q)⟩)
  | wake _ a th ht hpc hs =>
    exact oinv_thread i ht rfl rfl rfl rfl (fun ic gs ks t => by
      have := t.parked (by rw [hpc]; trivial)
      rw [hs] at this
      exact ⟨fun _ => ⟨by simp at this; omega, rfl⟩, fun q => q.elim, fun q => q.elim, fun q => q.elim, fun q => (by rcases q with q | q <;> cases q),
        fun q => (by cases q)⟩)

theorem oinv_reach {M : Nat} {s : St} (h : Reach M false s) : OInv s := by
  induction h with
  | init => exact ⟨fun a th h => (by simp [init] at h), fun a _ => (by simp [init]), fun a p h => (by simp [init] at h), by simp [init]⟩
  | step _ hs ih => exact oinv_step hs ih

end Verif.LinuxPool
