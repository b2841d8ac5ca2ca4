import Verif.Soo.Lemmas
import Verif.Arr.Ops

/-! What each member function of an array with small object optimisation does. -/
namespace Verif.Soo
open Verif.Arr (Slot Ty Buf Blk Al Good Edits newCapacity newCapacity_ge inserted removed)

variable {α : Type}

/-- outcome of a member function: never undefined, only the object's own memory changed, and a statement about the object afterwards -/
def Post (P : Par α) (m : Heap α) (o : Obj α) (r : Res α) (Q : Hr → List (Slot α) → Nat → Prop) (Th : Prop) : Prop :=
  match r with
  | .ub => False
  | .thr m' o' => Fr P m o m' o' ∧ content m' o' = content m o ∧ locks o' = locks o ∧ Th
  | .ret hr m' o' => Fr P m o m' o' ∧ Q hr (content m' o') (locks o')

/-- the usual outcome: the elements become `cs` and the number of locks `n`; or nothing changed, since there was no memory or the buffer is locked -/
def Does (m : Heap α) (o : Obj α) (al : Al) (cs : List (Slot α)) (n : Nat) (hr : Hr) (c : List (Slot α)) (l : Nat) : Prop :=
  (hr = .ok ∧ c = cs ∧ l = n) ∨ ((hr = .oom ∨ hr = .inval) ∧ (al = none ∨ 0 < locks o) ∧ c = content m o ∧ l = locks o)

/-- the largest number of elements whose size in bytes does not wrap -/
def Fits (P : Par α) (n : Nat) : Prop := n * P.sz < 2 ^ 64

theorem Fits.mono {P : Par α} {a b : Nat} (h : Fits P b) (hab : a ≤ b) : Fits P a :=
  Nat.lt_of_le_of_lt (Nat.mul_le_mul_right _ hab) h

theorem acquire_ok {P : Par α} {m o b need grow al} (h : Ok P m o b) (hz : 0 < P.sz) (hg : b.length < need → need ≤ grow ∧ Fits P grow) (ha : AlOk P m o al) :
    (∃ m' o' b', acquire P m o need grow al = .ret .ok m' o' ∧ Fr P m o m' o' ∧ Ok P m' o' b' ∧ content m' o' = content m o ∧ locks o' = locks o + 1 ∧ o'.size = o.size ∧ need ≤ b'.length) ∨
    (∃ hr, (hr = .oom ∨ hr = .inval) ∧ acquire P m o need grow al = .ret hr m o ∧ (al = none ∨ 0 < locks o)) := by
  unfold acquire
  rw [h.cap]; dsimp only
  by_cases h1 : need ≤ b.length
  · rw [if_pos h1]; dsimp only
    obtain ⟨o', e, f, k, c, l, s⟩ := lock_ok h
    rw [e]; exact .inl ⟨_, _, _, rfl, f, k, c, l, s, h1⟩
  · rw [if_neg h1]
    obtain ⟨hg1, hg2⟩ := hg (by omega)
    obtain ⟨hr, m', o', e, f, c, l, s, hh⟩ := realloc_ok (n := grow) h hz hg2 ha
    rw [e]
    rcases hh with ⟨rfl, b', k, hn, _⟩ | ⟨rfl, hal, _, rfl, rfl⟩ | ⟨rfl, hal, _, rfl, rfl⟩
    · dsimp only
      obtain ⟨o2, e2, f2, k2, c2, l2, s2⟩ := lock_ok k
      rw [e2]
      exact .inl ⟨_, _, _, rfl, f.trans f2, k2, c2.trans c, by rw [l2, l], by rw [s2, s], by omega⟩
    · exact .inr ⟨_, .inl rfl, rfl, .inl hal⟩
    · exact .inr ⟨_, .inr rfl, rfl, .inr hal⟩

/-- lock, change, unlock -/
theorem withLock_ok {P : Par α} {m o b need grow al f cs} (h : Ok P m o b) (hz : 0 < P.sz) (hg : b.length < need → need ≤ grow ∧ Fits P grow) (ha : AlOk P m o al)
    (hE : ∀ d : Blk α, Good P.T d → d.content = content m o → d.size = o.size → need ≤ d.buf.length → Edits P.T f d cs) :
    Post P m o (withLock P m o need grow al f) (Does m o al cs (locks o)) False := by
  unfold withLock
  rcases acquire_ok h hz hg ha with ⟨m', o', b', e, fr, k, c, l, s, hn⟩ | ⟨hr, hh, e, hal⟩
  · rw [e]; dsimp only
    obtain ⟨m2, o2, b2, e2, f2, k2, c2, l2, _⟩ := edit_ok k (hE ⟨1, o'.size, b'⟩ k.good (by rw [← k.content', c]) s hn)
    rw [e2]; dsimp only
    obtain ⟨o3, e3, f3, k3, c3, l3, _⟩ := unlockObj_ok k2 (by omega)
    rw [e3]
    exact ⟨(fr.trans f2).trans f3, .inl ⟨rfl, c3.trans c2, by omega⟩⟩
  · rcases hh with rfl | rfl <;> rw [e] <;> exact ⟨Fr.refl h, .inr ⟨.inl rfl, hal, rfl, rfl⟩⟩

/-- `LockInternalDataIncrement`: the 1.5-fold capacity must not wrap -/
theorem withInc_ok {P : Par α} {m o b inc al f cs} (h : Ok P m o b) (hz : 0 < P.sz) (hg : Fits P (2 * b.length + inc)) (ha : AlOk P m o al)
    (hE : ∀ d : Blk α, Good P.T d → d.content = content m o → d.size = o.size → o.size + inc ≤ d.buf.length → Edits P.T f d cs) :
    Post P m o (withInc P m o inc al f) (Does m o al cs (locks o)) False := by
  unfold withInc; rw [h.cap]; dsimp only
  refine withLock_ok h hz (fun _ => ⟨newCapacity_ge _ _, hg.mono ?_⟩) ha hE
  have := h.good.le
  dsimp only at this
  unfold newCapacity; split
  · omega
  · split <;> omega

theorem clear_ok {P : Par α} {m o b} (h : Ok P m o b) :
    Post P m o (clear P m o) (fun hr c l => hr = .ok ∧ c = [] ∧ l = locks o) (0 < locks o) := by
  unfold clear
  by_cases hs : o.size = 0
  · rw [if_pos hs]; exact ⟨Fr.refl h, rfl, by rw [h.content, hs]; rfl, rfl⟩
  rw [if_neg hs, h.lck]; dsimp only
  by_cases hl : locks o ≠ 0
  · rw [if_pos hl]; exact ⟨Fr.refl h, rfl, rfl, by omega⟩
  rw [if_neg hl]
  have E := Verif.Arr.edit_truncate (n := 0) h.good (Nat.zero_le _)
  simp only [Nat.sub_zero, List.take_zero] at E
  obtain ⟨m', o', b', e, fr, k, c, l, _⟩ := edit_ok h E
  rw [e]; exact ⟨fr, rfl, c, l⟩

theorem setEdit_eq (T : Ty α) (vs : List (Slot α)) (d : Blk α) :
    setEdit T vs d = Verif.Arr.setEdit T (.inn 1 0 vs.length) (fun _ => some ⟨1, 0, vs⟩) 0 d := by
  have h1 : (Verif.Arr.Ptr.inn 1 0 vs.length : Verif.Arr.Ptr α).clash 0 = false := by simp [Verif.Arr.Ptr.clash]
  have h2 : (Verif.Arr.Ptr.inn 1 0 vs.length : Verif.Arr.Ptr α).read (fun _ => some ⟨1, 0, vs⟩) 0 d.buf = some vs := by
    simp [Verif.Arr.Ptr.read]
  unfold setEdit Verif.Arr.setEdit
  rw [h1, h2]
  rfl

theorem edit_set {T : Ty α} {d : Blk α} {vs : List (Slot α)} (g : Good T d) (room : vs.length ≤ d.buf.length) (hv : ∀ v ∈ vs, v.alive = true) :
    Edits T (setEdit T vs) d vs := by
  have h2 : (Verif.Arr.Ptr.inn 1 0 vs.length : Verif.Arr.Ptr α).read (fun _ => some ⟨1, 0, vs⟩) 0 d.buf = some vs := by
    simp [Verif.Arr.Ptr.read]
  have := Verif.Arr.edit_setArr (src := .inn 1 0 vs.length) (m := fun _ => some ⟨1, 0, vs⟩) (q := 0) g (by simp [Verif.Arr.Ptr.clash]) h2 rfl room hv
  obtain ⟨d', e, r⟩ := this
  exact ⟨d', by rw [setEdit_eq]; exact e, r⟩

theorem setArr_ok {P : Par α} {m o b vs al} (h : Ok P m o b) (hz : 0 < P.sz) (hg : Fits P vs.length) (ha : AlOk P m o al) (hv : ∀ v ∈ vs, v.alive = true) :
    Post P m o (setArr P m o vs al) (Does m o al vs (locks o)) False ∧
    (vs.length ≤ b.length → locks o = 0 → ∃ m' o', setArr P m o vs al = .ret .ok m' o') := by
  unfold setArr; rw [h.lck]; dsimp only
  by_cases h1 : locks o ≠ 0 ∧ vs.length < o.size
  · rw [if_pos h1]; exact ⟨⟨Fr.refl h, .inr ⟨.inr rfl, .inr (by omega), rfl, rfl⟩⟩, fun _ h2 => absurd h2 h1.1⟩
  rw [if_neg h1]
  obtain ⟨hr, m', o', e, f, c, l, s, hh⟩ := realloc_ok (n := vs.length) h hz hg ha
  rw [e]
  rcases hh with ⟨rfl, b', k, hn, _⟩ | ⟨rfl, hal, hlt, rfl, rfl⟩ | ⟨rfl, hal, hlt, rfl, rfl⟩
  · dsimp only
    obtain ⟨m2, o2, b2, e2, f2, k2, c2, l2, _⟩ := edit_ok k (edit_set k.good hn hv)
    rw [e2]
    exact ⟨⟨f.trans f2, .inl ⟨rfl, c2, by rw [l2, l]⟩⟩, fun _ _ => ⟨_, _, rfl⟩⟩
  · exact ⟨⟨f, .inr ⟨.inl rfl, .inl hal, rfl, rfl⟩⟩, fun h2 _ => by omega⟩
  · exact ⟨⟨f, .inr ⟨.inr rfl, .inr hal, rfl, rfl⟩⟩, fun h2 _ => by omega⟩

theorem up16_ge {n : Nat} (h : n + 15 < 2 ^ 64) : n ≤ up16 n ∧ up16 n ≤ n + 15 := by
  unfold up16; rw [Nat.mod_eq_of_lt h]; omega

theorem fits_up16 {P : Par α} {n : Nat} (hz : 0 < P.sz) (h : Fits P (n + 15)) : n ≤ up16 n ∧ Fits P (up16 n) := by
  have h1 : n + 15 < 2 ^ 64 := by
    unfold Fits at h
    exact Nat.lt_of_le_of_lt (by calc n + 15 = (n + 15) * 1 := by omega
      _ ≤ (n + 15) * P.sz := Nat.mul_le_mul_left _ hz) h
  obtain ⟨a, b⟩ := up16_ge h1
  exact ⟨a, h.mono b⟩

theorem reserve_ok {P : Par α} {m o b n al} (h : Ok P m o b) (hz : 0 < P.sz) (hg : Fits P (n + 15)) (ha : AlOk P m o al) :
    Post P m o (reserve P m o n al) (Does m o al (content m o) (locks o)) False := by
  unfold reserve
  refine withLock_ok h hz (fun _ => fits_up16 hz hg) ha (fun d g c s _ => ⟨d, rfl, g, c, rfl, rfl⟩)

theorem lockSize_ok {P : Par α} {m o b n al} (h : Ok P m o b) (hz : 0 < P.sz) (hg : Fits P (n + 15)) (ha : AlOk P m o al) :
    Post P m o (lockSize P m o n al) (Does m o al ((content m o).take n ++ List.replicate (n - (content m o).length) (.val P.T.z)) (locks o + 1)) (0 < locks o) := by
  unfold lockSize
  rcases acquire_ok h hz (fun _ => fits_up16 hz hg) ha with ⟨m', o', b', e, fr, k, c, l, s, hn⟩ | ⟨hr, hh, e, hal⟩
  · rw [e]; dsimp only
    rw [k.lck]; dsimp only
    by_cases hb : ¬ o'.size ≤ n ∧ 1 < locks o'
    · rw [if_pos hb]
      obtain ⟨o3, e3, f3, k3, c3, l3, _⟩ := unlockObj_ok k (by omega)
      rw [e3]; exact ⟨fr.trans f3, c3.trans c, by omega, by omega⟩
    · rw [if_neg hb]
      obtain ⟨m2, o2, b2, e2, f2, k2, c2, l2, _⟩ := edit_ok k (Verif.Arr.edit_size (n := n) k.good hn)
      rw [e2]
      refine ⟨fr.trans f2, .inl ⟨rfl, ?_, by omega⟩⟩
      rw [c2, ← k.content', c, h.len, s]
  · rcases hh with rfl | rfl <;> rw [e] <;> exact ⟨Fr.refl h, .inr ⟨.inl rfl, hal, rfl, rfl⟩⟩

theorem unlock_ok {P : Par α} {m o b} (h : Ok P m o b) :
    Post P m o (unlock m o) (fun hr c l => hr = .ok ∧ c = content m o ∧ l + 1 = locks o) (locks o = 0) := by
  unfold unlock; rw [h.lck]; dsimp only
  by_cases hl : locks o = 0
  · rw [if_pos hl]; exact ⟨Fr.refl h, rfl, rfl, hl⟩
  · rw [if_neg hl]
    obtain ⟨o3, e3, f3, k3, c3, l3, _⟩ := unlockObj_ok h (by omega)
    rw [e3]; exact ⟨f3, rfl, c3, l3⟩

theorem resize_ok {P : Par α} {m o b n al} (h : Ok P m o b) (hz : 0 < P.sz) (hg : Fits P (n + 15)) (ha : AlOk P m o al) :
    Post P m o (resize P m o n al) (Does m o al ((content m o).take n ++ List.replicate (n - (content m o).length) (.val P.T.z)) (locks o)) (0 < locks o) := by
  unfold resize
  by_cases hn : n = 0
  · rw [if_pos hn]
    have A := clear_ok h
    generalize clear P m o = r at A
    cases r with
    | ub => exact A
    | thr m' o' => exact A
    | ret hr m' o' =>
      obtain ⟨f, rfl, c, l⟩ := A
      refine ⟨f, .inl ⟨rfl, ?_, l⟩⟩
      rw [c, hn]; simp
  · rw [if_neg hn]
    have A := lockSize_ok (n := n) h hz hg ha
    generalize lockSize P m o n al = r at A
    cases r with
    | ub => exact A
    | thr m' o' => exact A
    | ret hr m' o' =>
      obtain ⟨f, hd⟩ := A
      rcases hd with ⟨rfl, c, l⟩ | ⟨hh, hal, c, l⟩
      · dsimp only
        obtain ⟨b', k⟩ := f.ok
        have B := unlock_ok k
        generalize unlock m' o' = r2 at B
        cases r2 with
        | ub => exact B
        | thr m2 o2 => have := B.2.2.2; omega
        | ret hr2 m2 o2 =>
          obtain ⟨f2, rfl, c2, l2⟩ := B
          exact ⟨f.trans f2, .inl ⟨rfl, c2.trans c, by omega⟩⟩
      · rcases hh with rfl | rfl
        · exact ⟨f, .inr ⟨.inl rfl, hal, c, l⟩⟩
        · exact ⟨f, .inr ⟨.inr rfl, hal, c, l⟩⟩

theorem setItem_ok {P : Par α} {m o b k v al} (h : Ok P m o b) (hz : 0 < P.sz) (ha : AlOk P m o al) :
    Post P m o (setItem P m o k v al) (fun hr c l => l = locks o ∧
      (((content m o).length ≤ k ∧ hr = .bounds ∧ c = content m o) ∨ (k < (content m o).length ∧ hr = .ok ∧ c = (content m o).set k (.val v)))) False := by
  unfold setItem
  rw [h.len]
  by_cases hk : o.size ≤ k
  · rw [if_pos hk]; exact ⟨Fr.refl h, rfl, .inl ⟨hk, rfl, rfl⟩⟩
  rw [if_neg hk]
  -- the elements fit already
  unfold withInc; rw [h.cap]; dsimp only
  have gl := h.good.le
  dsimp only at gl
  unfold withLock acquire
  rw [h.cap]; dsimp only
  rw [if_pos (by omega)]; dsimp only
  obtain ⟨o', e, f, k1, c, l, s⟩ := lock_ok h
  rw [e]; dsimp only
  obtain ⟨m2, o2, b2, e2, f2, k2, c2, l2, _⟩ := edit_ok k1 (Verif.Arr.edit_set1 (k := k) (v := .val v) k1.good (by dsimp only; omega) rfl)
  rw [e2]; dsimp only
  obtain ⟨o3, e3, f3, k3, c3, l3, _⟩ := unlockObj_ok k2 (by omega)
  rw [e3]
  refine ⟨(f.trans f2).trans f3, by omega, .inr ⟨by omega, rfl, ?_⟩⟩
  rw [c3, c2, ← k1.content', c]

theorem write_ok {P : Par α} {m o b k v} (h : Ok P m o b) :
    Post P m o (write P m o k v) (fun hr c l => l = locks o ∧ k < (content m o).length ∧ hr = .ok ∧ c = (content m o).set k (.val v)) ((content m o).length ≤ k) := by
  unfold write
  rw [h.len]
  by_cases hk : o.size ≤ k
  · rw [if_pos hk]; exact ⟨Fr.refl h, rfl, rfl, hk⟩
  rw [if_neg hk]
  obtain ⟨m2, o2, b2, e2, f2, k2, c2, l2, _⟩ := edit_ok h (Verif.Arr.edit_set1 (k := k) (v := .val v) h.good (by dsimp only; omega) rfl)
  rw [e2]
  refine ⟨f2, l2, by omega, rfl, ?_⟩
  rw [c2, ← h.content']

theorem addN_ok {P : Par α} {m o b vs al} (h : Ok P m o b) (hz : 0 < P.sz) (hg : Fits P (2 * b.length + vs.length)) (ha : AlOk P m o al) (hv : ∀ v ∈ vs, v.alive = true) :
    Post P m o (addN P m o vs al) (Does m o al (content m o ++ vs) (locks o)) False := by
  unfold addN
  by_cases hn : vs = []
  · rw [if_pos hn]; exact ⟨Fr.refl h, .inl ⟨rfl, by rw [hn, List.append_nil], rfl⟩⟩
  rw [if_neg hn]
  refine withInc_ok h hz hg ha (fun d g c s r => ?_)
  have := Verif.Arr.edit_append (vs := vs) g (by omega) hv
  rw [c] at this; exact this

theorem insert_ok {P : Par α} {m o b k v al} (h : Ok P m o b) (hz : 0 < P.sz) (hg : Fits P (2 * b.length + 1)) (ha : AlOk P m o al) :
    Post P m o (insert P m o k v al) (fun hr c l =>
      ((content m o).length < k ∧ hr = .bounds ∧ c = content m o ∧ l = locks o) ∨ (k ≤ (content m o).length ∧ Does m o al (inserted P.T (content m o) k (.val v)) (locks o) hr c l)) False := by
  unfold insert
  by_cases hk : o.size < k
  · rw [if_pos hk]; exact ⟨Fr.refl h, .inl ⟨by rw [h.len]; exact hk, rfl, rfl, rfl⟩⟩
  rw [if_neg hk]
  have A := withInc_ok (inc := 1) (f := Verif.Arr.insertEdit P.T k (.ext v) (fun _ => none) 0) (cs := inserted P.T (content m o) k (.val v)) h hz hg ha (fun d g c s r => by
    have E := Verif.Arr.edit_insert (k := k) (v := .ext v) (m := fun _ => none) (q := 0) (x := .val v) g (by omega) (by omega) (fun b => rfl) rfl
    rw [c, s] at E
    unfold inserted
    rw [h.len]; exact E)
  generalize withInc P m o 1 al _ = r at A
  cases r with
  | ub => exact A
  | thr m' o' => exact A
  | ret hr m' o' => exact ⟨A.1, .inr ⟨by rw [h.len]; omega, A.2⟩⟩

theorem remove_ok {P : Par α} {m o b k n al} (h : Ok P m o b) (hz : 0 < P.sz) (hg : Fits P (2 * b.length)) (ha : AlOk P m o al) :
    Post P m o (remove P m o k n al) (fun hr c l =>
      (n = 0 ∨ (content m o).length ≤ k → hr = .ok ∧ c = content m o ∧ l = locks o) ∧ (k = 0 → (content m o).length ≤ n → hr = .ok ∧ c = [] ∧ l = locks o) ∧
      (0 < n → k < (content m o).length → ¬ (k = 0 ∧ (content m o).length ≤ n) →
        Does m o al (removed P.T (content m o) k (min n ((content m o).length - k))) (locks o) hr c l)) (0 < locks o) := by
  unfold remove
  rw [h.len]
  have nil : o.size = 0 → content m o = [] := fun e => by rw [← List.length_eq_zero_iff, h.len, e]
  by_cases hn : n = 0
  · rw [if_pos hn]
    exact ⟨Fr.refl h, fun _ => ⟨rfl, rfl, rfl⟩, fun _ h2 => ⟨rfl, nil (by omega), rfl⟩, fun h2 => by omega⟩
  rw [if_neg hn]
  by_cases hk : o.size ≤ k
  · rw [if_pos hk]
    exact ⟨Fr.refl h, fun _ => ⟨rfl, rfl, rfl⟩, fun _ h2 => ⟨rfl, nil (by omega), rfl⟩, fun _ h2 => by omega⟩
  rw [if_neg hk]
  have hc : (if n < o.size - k then n else o.size - k) = min n (o.size - k) := by split <;> omega
  rw [hc]; dsimp only
  by_cases hall : min n (o.size - k) = o.size
  · rw [if_pos hall]
    have A := clear_ok h
    generalize clear P m o = r at A
    cases r with
    | ub => exact A
    | thr m' o' => exact A
    | ret hr m' o' => exact ⟨A.1, fun h1 => by omega, fun _ _ => A.2, fun _ _ h3 => absurd ⟨by omega, by omega⟩ h3⟩
  · rw [if_neg hall]
    have A := withInc_ok (inc := 0) (f := Verif.Arr.removeEdit P.T k (min n (o.size - k))) (cs := removed P.T (content m o) k (min n (o.size - k))) h hz hg ha (fun d g c s r => by
      have E := Verif.Arr.edit_remove (k := k) (n := min n (o.size - k)) g (by omega) (by omega)
      rw [c] at E; exact E)
    generalize withInc P m o 0 al _ = r at A
    cases r with
    | ub => exact A
    | thr m' o' => exact A.2.2.2.elim
    | ret hr m' o' => exact ⟨A.1, fun h1 => by omega, fun h1 h2 => by omega, fun _ _ _ => A.2⟩

theorem destroy_ok {P : Par α} {m o b} (h : Ok P m o b) :
    (0 < locks o → destroy P m o = some none) ∧
    (locks o = 0 → ∃ m', destroy P m o = some (some m') ∧ (∀ a, own o ≠ some a → m' a = m a) ∧ (∀ a, own o = some a → m' a = none)) := by
  unfold destroy; rw [h.lck, h.buf]; dsimp only
  refine ⟨fun hl => by rw [if_pos (by omega)], fun hl => ?_⟩
  rw [if_neg (by omega)]
  have gl := h.good.le
  dsimp only at gl
  rw [Verif.Arr.desN_eq (b := b) (k := 0) (n := o.size) (by omega) (fun _ j x _ h2 hx => h.good.live j x (by dsimp only; omega) hx)]
  refine ⟨_, rfl, fun a ha => ?_, fun a ha => ?_⟩
  · unfold own at ha
    split at ha
    · rename_i hh; rw [if_pos hh]
    · rename_i hh; rw [if_neg hh]; unfold hset; rw [if_neg (by intro e; exact ha (by rw [e]))]
  · obtain ⟨h', rfl⟩ := own_some ha
    rw [if_neg h']; unfold hset; rw [if_pos rfl]

theorem fresh_ok (P : Par α) (m : Heap α) : Ok P m (fresh P) (List.replicate P.smallCap .raw) := by
  refine ⟨rfl, by simp [getCap, fresh], rfl, ⟨Nat.zero_le _, fun j x h => absurd h (Nat.not_lt_zero j), fun _ j _ h => ?_⟩, by simp⟩
  rw [List.getElem?_replicate, if_pos (by simpa using h)]

theorem fresh_own (P : Par α) : own (fresh P) = none := rfl
theorem fresh_content (P : Par α) (m : Heap α) : content m (fresh P) = [] := rfl
theorem fresh_locks (P : Par α) : locks (fresh P) = 0 := by simp [locks, fresh, getLocks]

end Verif.Soo
