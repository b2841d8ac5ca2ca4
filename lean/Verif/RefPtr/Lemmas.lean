import Verif.RefPtr.Model
set_option linter.unusedSimpArgs false
namespace Verif.RefPtr
open Verif.Common

def isDtor (t : Th) : Nat := if t.pc = .dtor then 1 else 0
def isRel (t : Th) : Nat := if t.pc = .relWeak then 1 else 0
def isFree (t : Th) : Nat := if t.pc = .free then 1 else 0

theorem isDtor_mk (a b : Nat) (p : PC) : isDtor ⟨a, b, p⟩ = if p = .dtor then 1 else 0 := rfl
theorem isRel_mk (a b : Nat) (p : PC) : isRel ⟨a, b, p⟩ = if p = .relWeak then 1 else 0 := rfl
theorem isFree_mk (a b : Nat) (p : PC) : isFree ⟨a, b, p⟩ = if p = .free then 1 else 0 := rfl
theorem isDtor_eq (t : Th) : isDtor t = if t.pc = .dtor then 1 else 0 := rfl
theorem isRel_eq (t : Th) : isRel t = if t.pc = .relWeak then 1 else 0 := rfl
theorem isFree_eq (t : Th) : isFree t = if t.pc = .free then 1 else 0 := rfl

structure Inv (s : St) : Prop where
  sref : s.uRef = sumBy Th.strong s.threads
  bnd : sumBy Th.strong s.threads < wrap
  wbnd : sumBy Th.weak s.threads + 1 < wrap
  ok : s.ub = false
  dead : s.uRef = 0 → sumBy isDtor s.threads + s.destroyed = 1
  live : 0 < s.uRef → sumBy isDtor s.threads + s.destroyed = 0
  rel : sumBy isRel s.threads ≤ s.destroyed
  sweak : s.uWeak + s.destroyed = sumBy Th.weak s.threads + 1 + sumBy isRel s.threads
  memDead : s.uWeak = 0 → sumBy isFree s.threads + s.freed = 1
  memLive : 0 < s.uWeak → sumBy isFree s.threads + s.freed = 0
  pin : ∀ t ∈ s.threads, ∀ c, t.pc = .trying c → 0 < t.weak ∧ (c = 0 → s.uRef = 0)

theorem sumBy_replicate {α} (f : α → Nat) (x : α) (hx : f x = 0) (n : Nat) : sumBy f (List.replicate n x) = 0 := by
  induction n with
  | zero => rfl
  | succ n ih => simp [List.replicate_succ, ih, hx]

theorem inv_init {s} (h : Init s) : Inv s := by
  obtain ⟨n, rfl⟩ := h
  have := @sumBy_replicate Th
  refine ⟨?_, ?_, ?_, rfl, ?_, ?_, ?_, ?_, ?_, ?_, ?_⟩
  all_goals simp [this, isDtor, isRel, isFree]
  all_goals (unfold wrap; omega)

theorem pin_set {s : St} (hI : Inv s) {i : Nat} {x : Th} {s' : St} (hs : s'.threads = s.threads.set i x)
    (hx : ∀ c, x.pc = .trying c → 0 < x.weak ∧ (c = 0 → s'.uRef = 0)) (hr : s.uRef = 0 → s'.uRef = 0) :
    ∀ t ∈ s'.threads, ∀ c, t.pc = .trying c → 0 < t.weak ∧ (c = 0 → s'.uRef = 0) := by
  intro t ht c hc
  rw [hs] at ht
  rcases mem_set ht with h | h
  · subst h; exact hx c hc
  · obtain ⟨h1, h2⟩ := hI.pin t h c hc
    exact ⟨h1, fun h0 => hr (h2 h0)⟩

theorem mod_inc {a b : Nat} (h : b < wrap) (e : a + 1 = b) : (a + 1) % wrap = a + 1 := Nat.mod_eq_of_lt (by omega)
theorem mod_dec {a : Nat} (h : a < wrap) (h0 : 0 < a) : (a + wrap - 1) % wrap = a - 1 := by
  have : a + wrap - 1 = (a - 1) + wrap := by omega
  rw [this, Nat.add_mod_right]; exact Nat.mod_eq_of_lt (by omega)

/-- The arithmetic effect of replacing thread `t` by `x`. -/
theorem sums {s : St} {i : Nat} {t : Th} (h : s.threads[i]? = some t) (x : Th) :
    sumBy Th.strong (s.threads.set i x) + t.strong = sumBy Th.strong s.threads + x.strong ∧
    sumBy Th.weak (s.threads.set i x) + t.weak = sumBy Th.weak s.threads + x.weak ∧
    sumBy isDtor (s.threads.set i x) + isDtor t = sumBy isDtor s.threads + isDtor x ∧
    sumBy isRel (s.threads.set i x) + isRel t = sumBy isRel s.threads + isRel x ∧
    sumBy isFree (s.threads.set i x) + isFree t = sumBy isFree s.threads + isFree x ∧
    t.strong ≤ sumBy Th.strong s.threads ∧ t.weak ≤ sumBy Th.weak s.threads ∧
    isDtor t ≤ sumBy isDtor s.threads ∧ isRel t ≤ sumBy isRel s.threads ∧ isFree t ≤ sumBy isFree s.threads :=
  ⟨sumBy_set _ _ _ _ _ h, sumBy_set _ _ _ _ _ h, sumBy_set _ _ _ _ _ h, sumBy_set _ _ _ _ _ h, sumBy_set _ _ _ _ _ h,
   le_sumBy _ _ _ _ h, le_sumBy _ _ _ _ h, le_sumBy _ _ _ _ h, le_sumBy _ _ _ _ h, le_sumBy _ _ _ _ h⟩

/-- One thread changes. -/
theorem inv_of {s s' : St} (hI : Inv s) {i : Nat} {x t : Th} (h : s.threads[i]? = some t) (hs : s'.threads = s.threads.set i x)
    (sref : s'.uRef + t.strong = s.uRef + x.strong) (bnd : s.uRef + x.strong < wrap + t.strong)
    (wbnd : sumBy Th.weak s.threads + x.weak + 1 < wrap + t.weak)
    (ok : s'.ub = false)
    (group : ∀ S W D R F, S + t.strong = s.uRef + x.strong → W + t.weak = sumBy Th.weak s.threads + x.weak →
       D + isDtor t = sumBy isDtor s.threads + isDtor x → R + isRel t = sumBy isRel s.threads + isRel x →
       F + isFree t = sumBy isFree s.threads + isFree x →
       (S = 0 → D + s'.destroyed = 1) ∧ (0 < S → D + s'.destroyed = 0) ∧ R ≤ s'.destroyed ∧
       s'.uWeak + s'.destroyed = W + 1 + R ∧ (s'.uWeak = 0 → F + s'.freed = 1) ∧ (0 < s'.uWeak → F + s'.freed = 0))
    (hx : ∀ c, x.pc = .trying c → 0 < x.weak ∧ (c = 0 → s'.uRef = 0)) (hr : s.uRef = 0 → s'.uRef = 0) : Inv s' := by
  obtain ⟨u1, u2, u3, u4, u5, -⟩ := sums h x
  have hi := hI.sref
  rw [← hi] at u1
  obtain ⟨g1, g2, g3, g4, g5, g6⟩ := group _ _ _ _ _ u1 u2 u3 u4 u5
  rw [← hs] at u1 u2 u3 u4 u5 g1 g2 g3 g4 g5 g6
  have hS : s'.uRef = sumBy Th.strong s'.threads := by omega
  refine ⟨hS, by omega, by omega, ok, by rw [hS]; exact g1, by rw [hS]; exact g2, g3, g4, g5, g6, pin_set hI hs hx hr⟩

theorem Inv.alive {s : St} (hI : Inv s) (h : 0 < s.uRef) : s.destroyed = 0 ∧ s.freed = 0 := by
  have := hI.dead; have := hI.live; have := hI.rel; have := hI.sweak; have := hI.memDead; have := hI.memLive; have := hI.wbnd; omega

theorem Inv.mem_alive {s : St} (hI : Inv s) (h : 0 < s.uRef ∨ 0 < sumBy Th.weak s.threads) : s.freed = 0 ∧ 0 < s.uWeak := by
  have := hI.dead; have := hI.live; have := hI.rel; have := hI.sweak; have := hI.memDead; have := hI.memLive; have := hI.wbnd; omega

theorem Inv.lt {s : St} (hI : Inv s) : s.uRef < wrap ∧ s.uWeak < wrap := by
  have := hI.sref; have := hI.bnd; have := hI.wbnd; have := hI.dead; have := hI.live; have := hI.rel; have := hI.sweak; omega

set_option maxHeartbeats 4000000 in
theorem inv_step {s s'} (hI : Inv s) (hs : Step s s') : Inv s' := by
  have ⟨sref, bnd, wbnd, ok, dead, live, rel, sweak, memDead, memLive, pin⟩ := hI
  obtain ⟨lt1, lt2⟩ := hI.lt
  cases hs with
  | use i t h hp ho =>
    have l1 := le_sumBy Th.strong _ _ _ h
    obtain ⟨a1, a2⟩ := hI.alive (by omega)
    exact ⟨sref, bnd, wbnd, by simp [ok, a1, a2], dead, live, rel, sweak, memDead, memLive, pin⟩
  | addRef i t h hp ho hb =>
    obtain ⟨-, -, -, -, -, l1, -⟩ := sums h t
    obtain ⟨a1, a2⟩ := hI.alive (by omega)
    have e : (s.uRef + 1) % wrap = s.uRef + 1 := Nat.mod_eq_of_lt (by rw [sref]; exact hb)
    simp only [St.strongs] at hb
    refine inv_of hI h rfl ?_ ?_ ?_ ?_ ?_ ?_ ?_
    · simp only [e]; omega
    · simp only []; omega
    · simp only []; omega
    · simp [St.touch, ok, a2]
    · intro S W D R F; simp only [isDtor_mk, isRel_mk, isFree_mk, isDtor_eq t, isRel_eq t, isFree_eq t, hp, St.touch]; simp; clear pin hI; omega
    · simp [hp]
    · simp only [e]; omega
  | addWeakRef i t h hp ho hb =>
    obtain ⟨-, -, -, -, -, l1, l2, -⟩ := sums h t
    obtain ⟨a1, a2⟩ := hI.mem_alive (by omega)
    simp only [St.weaks] at hb
    have e : (s.uWeak + 1) % wrap = s.uWeak + 1 := Nat.mod_eq_of_lt (by omega)
    refine inv_of hI h rfl ?_ ?_ ?_ ?_ ?_ ?_ ?_
    · simp only [St.touch]
    · simp only []; omega
    · simp only []; omega
    · simp [St.touch, ok, a1]
    · intro S W D R F; simp only [isDtor_mk, isRel_mk, isFree_mk, isDtor_eq t, isRel_eq t, isFree_eq t, hp, St.touch, e]; simp; clear pin hI; omega
    · simp [hp]
    · simp [St.touch]
  | release i t h hp ho =>
    obtain ⟨-, -, -, -, -, l1, l2, -⟩ := sums h t
    obtain ⟨a1, a2⟩ := hI.alive (by omega)
    have e : (s.uRef + wrap - 1) % wrap = s.uRef - 1 := mod_dec lt1 (by omega)
    rw [e]
    refine inv_of hI h rfl ?_ ?_ ?_ ?_ ?_ ?_ ?_
    · simp only []; omega
    · simp only []; omega
    · simp only []; omega
    · simp [St.touch, ok, a2]
    · intro S W D R F
      by_cases h0 : s.uRef - 1 = 0
      all_goals (simp only [isDtor_mk, isRel_mk, isFree_mk, isDtor_eq t, isRel_eq t, isFree_eq t, hp, St.touch, h0]; simp; clear pin hI; omega)
    · intro c; simp only []; split <;> simp
    · simp only []; omega
  | dtor i t h hp =>
    obtain ⟨-, -, -, -, -, l1, l2, l3, -⟩ := sums h t
    have k : isDtor t = 1 := by simp [isDtor, hp]
    have a1 : s.destroyed = 0 := by omega
    have a2 : s.freed = 0 := by omega
    refine inv_of hI h rfl ?_ ?_ ?_ ?_ ?_ ?_ ?_
    · simp only [St.touch]
    · simp only []; omega
    · simp only []; omega
    · simp [ok, a1, a2]
    · intro S W D R F
      simp only [isDtor_mk, isRel_mk, isFree_mk, isDtor_eq t, isRel_eq t, isFree_eq t, hp, St.touch] ; simp; clear pin hI; omega
    · simp
    · simp [St.touch]
  | relWeak i t h hp =>
    obtain ⟨-, -, -, -, -, l1, l2, -, l4, -⟩ := sums h t
    have k : isRel t = 1 := by simp [isRel, hp]
    have a1 : s.freed = 0 := by omega
    have e : (s.uWeak + wrap - 1) % wrap = s.uWeak - 1 := mod_dec lt2 (by omega)
    rw [e]
    refine inv_of hI h rfl ?_ ?_ ?_ ?_ ?_ ?_ ?_
    · simp only [St.touch]
    · simp only []; omega
    · simp only []; omega
    · simp [St.touch, ok, a1]
    · intro S W D R F
      by_cases h0 : s.uWeak - 1 = 0
      all_goals (simp only [isDtor_mk, isRel_mk, isFree_mk, isDtor_eq t, isRel_eq t, isFree_eq t, hp, St.touch, h0]; simp; clear pin hI; omega)
    · intro c; simp only []; split <;> simp
    · simp [St.touch]
  | releaseWeak i t h hp ho =>
    obtain ⟨-, -, -, -, -, l1, l2, -, l4, -⟩ := sums h t
    obtain ⟨a1, a2⟩ := hI.mem_alive (by omega)
    have e : (s.uWeak + wrap - 1) % wrap = s.uWeak - 1 := mod_dec lt2 (by omega)
    rw [e]
    refine inv_of hI h rfl ?_ ?_ ?_ ?_ ?_ ?_ ?_
    · simp only [St.touch]
    · simp only []; omega
    · simp only []; omega
    · simp [St.touch, ok, a1]
    · intro S W D R F
      by_cases h0 : s.uWeak - 1 = 0
      all_goals (simp only [isDtor_mk, isRel_mk, isFree_mk, isDtor_eq t, isRel_eq t, isFree_eq t, hp, St.touch, h0]; simp; clear pin hI; omega)
    · intro c; simp only []; split <;> simp
    · simp [St.touch]
  | free i t h hp =>
    obtain ⟨-, -, -, -, -, l1, l2, -, -, l5⟩ := sums h t
    have k : isFree t = 1 := by simp [isFree, hp]
    have a1 : s.freed = 0 := by omega
    refine inv_of hI h rfl ?_ ?_ ?_ ?_ ?_ ?_ ?_
    · simp only []
    · simp only []; omega
    · simp only []; omega
    · simp [ok, a1]
    · intro S W D R F
      simp only [isDtor_mk, isRel_mk, isFree_mk, isDtor_eq t, isRel_eq t, isFree_eq t, hp]; simp; clear pin hI; omega
    · simp
    · simp
  | tryRead i t h hp ho =>
    obtain ⟨-, -, -, -, -, l1, l2, -, l4, -⟩ := sums h t
    obtain ⟨a1, a2⟩ := hI.mem_alive (by omega)
    refine inv_of hI h rfl ?_ ?_ ?_ ?_ ?_ ?_ ?_
    · simp only [St.touch]
    · simp only []; omega
    · simp only []; omega
    · simp [St.touch, ok, a1]
    · intro S W D R F
      simp only [isDtor_mk, isRel_mk, isFree_mk, isDtor_eq t, isRel_eq t, isFree_eq t, hp, St.touch]; simp; clear pin hI; omega
    · intro c; simp [St.touch]; intro hc; subst hc; exact ⟨ho, id⟩
    · simp [St.touch]
  | tryFail i t h hp =>
    refine inv_of hI h rfl ?_ ?_ ?_ ?_ ?_ ?_ ?_
    · simp only []
    · simp only []; omega
    · simp only []; omega
    · simp [ok]
    · intro S W D R F
      simp only [isDtor_mk, isRel_mk, isFree_mk, isDtor_eq t, isRel_eq t, isFree_eq t, hp]; simp; clear pin hI; omega
    · simp
    · simp
  | tryCas i t cur h hp hc hb =>
    obtain ⟨-, -, -, -, -, l1, l2, -, l4, -⟩ := sums h t
    obtain ⟨p1, -⟩ := pin t (List.mem_of_getElem? h) cur hp
    obtain ⟨a1, a2⟩ := hI.mem_alive (by omega)
    simp only [St.strongs] at hb
    split
    · rename_i hcur
      have e : (cur + 1) % wrap = cur + 1 := Nat.mod_eq_of_lt (by omega)
      refine inv_of hI h rfl ?_ ?_ ?_ ?_ ?_ ?_ ?_
      · simp only [e]; omega
      · simp only []; omega
      · simp only []; omega
      · simp [St.touch, ok, a1]
      · intro S W D R F
        simp only [isDtor_mk, isRel_mk, isFree_mk, isDtor_eq t, isRel_eq t, isFree_eq t, hp, St.touch]; simp; clear pin hI; omega
      · simp
      · simp only [e]; omega
    · refine inv_of hI h rfl ?_ ?_ ?_ ?_ ?_ ?_ ?_
      · simp only [St.touch]
      · simp only []; omega
      · simp only []; omega
      · simp [St.touch, ok, a1]
      · intro S W D R F
        simp only [isDtor_mk, isRel_mk, isFree_mk, isDtor_eq t, isRel_eq t, isFree_eq t, hp, St.touch]; simp; clear pin hI; omega
      · intro c; simp [St.touch]; intro hc; subst hc; exact ⟨p1, id⟩
      · simp [St.touch]
  | giveStrong i j t u hij h h' ho hp =>
    have h2 : (s.threads.set i { t with strong := t.strong - 1 })[j]? = some u := by rw [List.getElem?_set_ne hij]; exact h'
    have e (f : Th → Nat) := sumBy_set f _ _ { t with strong := t.strong - 1 } _ h
    have e' (f : Th → Nat) := sumBy_set f _ _ { u with strong := u.strong + 1 } _ h2
    have s1 := e Th.strong; have s1' := e' Th.strong
    have s2 := e Th.weak; have s2' := e' Th.weak
    have s3 := e isDtor; have s3' := e' isDtor
    have s4 := e isRel; have s4' := e' isRel
    have s5 := e isFree; have s5' := e' isFree
    simp only [isDtor_mk, isRel_mk, isFree_mk] at s1 s1' s2 s2' s3 s3' s4 s4' s5 s5'
    rw [← isDtor_eq] at s3 s3'; rw [← isRel_eq] at s4 s4'; rw [← isFree_eq] at s5 s5'
    
    refine ⟨?_, ?_, ?_, ok, ?_, ?_, ?_, ?_, ?_, ?_, ?_⟩
    · simp only []; omega
    · simp only []; omega
    · simp only []; omega
    · simp only []; omega
    · simp only []; omega
    · simp only []; omega
    · simp only []; omega
    · simp only []; omega
    · simp only []; omega
    · intro x hx c hc
      rcases mem_set hx with rfl | hx
      · exact pin u (List.mem_of_getElem? h') c hc
      · rcases mem_set hx with rfl | hx
        · exact pin t (List.mem_of_getElem? h) c hc
        · exact pin x hx c hc
  | giveWeak i j t u hij h h' ho hp =>
    have h2 : (s.threads.set i { t with weak := t.weak - 1 })[j]? = some u := by rw [List.getElem?_set_ne hij]; exact h'
    have e (f : Th → Nat) := sumBy_set f _ _ { t with weak := t.weak - 1 } _ h
    have e' (f : Th → Nat) := sumBy_set f _ _ { u with weak := u.weak + 1 } _ h2
    have s1 := e Th.strong; have s1' := e' Th.strong
    have s2 := e Th.weak; have s2' := e' Th.weak
    have s3 := e isDtor; have s3' := e' isDtor
    have s4 := e isRel; have s4' := e' isRel
    have s5 := e isFree; have s5' := e' isFree
    simp only [isDtor_mk, isRel_mk, isFree_mk] at s1 s1' s2 s2' s3 s3' s4 s4' s5 s5'
    rw [← isDtor_eq] at s3 s3'; rw [← isRel_eq] at s4 s4'; rw [← isFree_eq] at s5 s5'
    
    refine ⟨?_, ?_, ?_, ok, ?_, ?_, ?_, ?_, ?_, ?_, ?_⟩
    · simp only []; omega
    · simp only []; omega
    · simp only []; omega
    · simp only []; omega
    · simp only []; omega
    · simp only []; omega
    · simp only []; omega
    · simp only []; omega
    · simp only []; omega
    · intro x hx c hc
      rcases mem_set hx with rfl | hx
      · have := pin u (List.mem_of_getElem? h') c hc
        exact ⟨by simp, this.2⟩
      · rcases mem_set hx with rfl | hx
        · simp [hp] at hc
        · exact pin x hx c hc

theorem inv_reach {s} (h : Reach s) : Inv s := by
  induction h with
  | init s h => exact inv_init h
  | step s s' _ hs ih => exact inv_step ih hs

end Verif.RefPtr
