import Verif.Soo.Model
import Verif.Arr.Shift

/-! One array with small object optimisation: invariant, and what the storage functions do. -/
namespace Verif.Soo
open Verif.Arr

variable {α : Type}

/-- the heap block an object owns -/
def own (o : Obj α) : Option Nat := if o.w0 % 2 = 1 then none else some o.w0

/-- the elements -/
def content (m : Heap α) (o : Obj α) : List (Slot α) :=
  match getBuf m o with
  | none => []
  | some b => b.take o.size

def locks (o : Obj α) : Nat := (getLocks o).getD 0

/-- a consistent object: the union is read the way it was written, the capacity is that of the buffer, `size` elements live in the buffer and nothing else -/
structure Ok (P : Par α) (m : Heap α) (o : Obj α) (b : Buf α) : Prop where
  buf : getBuf m o = some b
  cap : getCap P o = some b.length
  lck : getLocks o = some (locks o)
  good : Good P.T ⟨1, o.size, b⟩
  room : P.smallCap ≤ b.length

theorem Ok.content {P : Par α} {m o b} (h : Ok P m o b) : Soo.content m o = b.take o.size := by unfold Soo.content; rw [h.buf]

theorem Ok.content' {P : Par α} {m o b} (h : Ok P m o b) : Soo.content m o = (⟨1, o.size, b⟩ : Blk α).content := h.content

theorem Ok.len {P : Par α} {m o b} (h : Ok P m o b) : (Soo.content m o).length = o.size := by
  rw [h.content', content_length h.good]

/-- a function of the object `o` led to `o'` and changed only the memory the object has -/
structure Fr (P : Par α) (m : Heap α) (o : Obj α) (m' : Heap α) (o' : Obj α) : Prop where
  ok : ∃ b, Ok P m' o' b
  same : ∀ a, own o ≠ some a → own o' ≠ some a → m' a = m a
  dom : ∀ a, (m' a).isSome = true ↔ own o' = some a ∨ ((m a).isSome = true ∧ own o ≠ some a)
  new : ∀ a, own o' = some a → own o = some a ∨ m a = none

theorem own_some {o : Obj α} {a} (h : own o = some a) : o.w0 % 2 ≠ 1 ∧ a = o.w0 := by
  unfold own at h
  split at h
  · cases h
  · exact ⟨by assumption, by simpa using h.symm⟩

theorem own_live {P : Par α} {m o b a} (h : Ok P m o b) (ha : own o = some a) : m a = some b := by
  obtain ⟨h1, rfl⟩ := own_some ha
  have := h.buf
  unfold getBuf at this
  rw [if_neg h1] at this
  split at this
  · cases this
  · exact this

theorem Fr.refl {P : Par α} {m o b} (h : Ok P m o b) : Fr P m o m o := by
  refine ⟨⟨b, h⟩, fun _ _ _ => rfl, fun a => ?_, fun a h => .inl h⟩
  by_cases ha : own o = some a
  · simp [ha, own_live h ha]
  · simp [ha]

theorem Fr.trans {P : Par α} {m o m1 o1 m2 o2} (h1 : Fr P m o m1 o1) (h2 : Fr P m1 o1 m2 o2) : Fr P m o m2 o2 := by
  refine ⟨h2.ok, fun a ha hb => ?_, fun a => ?_, fun a ha => ?_⟩
  · by_cases h : own o1 = some a
    · -- the block in between is gone again
      have e1 : m2 a = none := by
        have := (h2.dom a).1
        cases hm : m2 a with
        | none => rfl
        | some v => rw [hm] at this; rcases this rfl with h' | h' <;> simp_all
      have e2 : m a = none := by
        rcases h1.new a h with h' | h'
        · exact absurd h' ha
        · exact h'
      rw [e1, e2]
    · rw [h2.same a h hb, h1.same a ha h]
  · rw [h2.dom a, h1.dom a]
    constructor
    · rintro (h | ⟨h | h, h'⟩)
      · exact .inl h
      · exact absurd h h'
      · exact .inr h
    · rintro (h | ⟨h, h'⟩)
      · exact .inl h
      · by_cases e : own o1 = some a
        · rcases h1.new a e with e' | e'
          · exact absurd e' h'
          · rw [e'] at h; cases h
        · exact .inr ⟨.inr ⟨h, h'⟩, e⟩
  · rcases h2.new a ha with h | h
    · exact h1.new a h
    · by_cases e : own o = some a
      · exact .inl e
      · by_cases e' : own o1 = some a
        · rcases h1.new a e' with e'' | e''
          · exact absurd e'' e
          · exact .inr e''
        · rw [← h1.same a e e']; exact .inr h

/-- what the allocator may answer: an even address (the lowest bit is the mark of the small form) where nothing lies; for a trivial type possibly the block itself -/
def AlOk (P : Par α) (m : Heap α) (o : Obj α) (al : Al) : Prop :=
  ∀ q, al = some q → q % 2 = 0 ∧ (m q = none ∨ (P.T.triv = true ∧ own o = some q))

theorem good_new {P : Par α} {n c : Nat} {b : Buf α} (g : Good P.T ⟨1, n, b⟩) (h : n ≤ c) :
    consL P.T (List.replicate c .raw) 0 (b.take n) = some (splice (List.replicate c .raw) 0 (b.take n)) ∧
    (splice (List.replicate c .raw) 0 (b.take n)).length = c ∧
    Good P.T ⟨1, n, splice (List.replicate c .raw) 0 (b.take n)⟩ ∧ (splice (List.replicate c .raw) 0 (b.take n)).take n = b.take n := by
  have gl := g.le
  dsimp only at gl
  have cl : (b.take n).length = n := by rw [List.length_take]; omega
  have al : ∀ x ∈ b.take n, x.alive = true := content_alive g
  have sl : (splice (List.replicate c .raw) 0 (b.take n)).length = c := by rw [splice_length (by simp; omega)]; simp
  refine ⟨consL_eq (by simp; omega) fun _ => ⟨fun j h1 h2 => ?_, al⟩, sl, ?_⟩
  · rw [List.getElem?_replicate, if_pos (by omega)]
  · have := good_mk (T := P.T) (i := 1) (n := n) (b := splice (List.replicate c .raw) 0 (b.take n)) (b.take n) cl (by omega)
      (fun j hj => by rw [splice_get (by simp; omega), if_neg (by omega), if_pos (by omega)]; rfl) al
      (fun ht j h1 h2 => by rw [splice_get (by simp; omega), if_neg (by omega), if_neg (by omega), List.getElem?_replicate, if_pos (by omega)])
    exact ⟨this.1, this.2⟩

theorem bytes_room {P : Par α} {n : Nat} (hz : 0 < P.sz) (h : n * P.sz < 2 ^ 64) : bytes P n / P.sz = n := by
  unfold bytes; rw [Nat.mod_eq_of_lt h]; exact Nat.mul_div_cancel _ hz

/-- `Realloc`: the elements stay, the capacity suffices, or a reason is given -/
theorem realloc_ok {P : Par α} {m o b n al} (h : Ok P m o b) (hz : 0 < P.sz) (hn : n * P.sz < 2 ^ 64) (ha : AlOk P m o al) :
    ∃ hr m' o', realloc P m o n al = .ret hr m' o' ∧ Fr P m o m' o' ∧ content m' o' = content m o ∧ locks o' = locks o ∧ o'.size = o.size ∧
      ((hr = .ok ∧ ∃ b', Ok P m' o' b' ∧ n ≤ b'.length ∧ b.length ≤ b'.length) ∨ (hr = .oom ∧ al = none ∧ b.length < n ∧ m' = m ∧ o' = o) ∨
        (hr = .inval ∧ 0 < locks o ∧ b.length < n ∧ m' = m ∧ o' = o)) := by
  unfold realloc
  rw [h.cap, h.lck, h.buf]
  dsimp only
  by_cases h1 : n ≤ b.length
  · rw [if_pos h1]; exact ⟨_, _, _, rfl, Fr.refl h, rfl, rfl, rfl, .inl ⟨rfl, b, h, h1, Nat.le_refl _⟩⟩
  rw [if_neg h1]
  by_cases h2 : locks o ≠ 0
  · rw [if_pos h2]; exact ⟨_, _, _, rfl, Fr.refl h, rfl, rfl, rfl, .inr (.inr ⟨rfl, by omega, by omega, rfl, rfl⟩)⟩
  rw [if_neg h2]
  cases al with
  | none => exact ⟨_, _, _, rfl, Fr.refl h, rfl, rfl, rfl, .inr (.inl ⟨rfl, rfl, by omega, rfl, rfl⟩)⟩
  | some q =>
    have gl := h.good.le
    dsimp only at gl ⊢
    rw [bytes_room hz hn]
    obtain ⟨e1, e2, e3, e4⟩ := good_new (c := n) h.good (by omega)
    rw [e1, desN_eq (b := b) (k := 0) (n := o.size) (by omega) (fun _ j x _ h2 hx => h.good.live j x (by dsimp only; omega) hx)]
    dsimp only
    obtain ⟨q1, q2⟩ := ha q rfl
    generalize hm1 : (if o.w0 % 2 = 1 then m else hset m o.w0 none) = m1
    generalize splice (List.replicate n .raw) 0 (b.take o.size) = b' at *
    have m1eq : ∀ a, own o ≠ some a → m1 a = m a := by
      intro a h
      rw [← hm1]
      unfold own at h
      split at h
      · rename_i hh; rw [if_pos hh]
      · rename_i hh; rw [if_neg hh]; unfold hset; rw [if_neg (by intro e; exact h (by rw [e]))]
    have m1no : ∀ a, own o = some a → m1 a = none := by
      intro a h
      obtain ⟨h', rfl⟩ := own_some h
      rw [← hm1, if_neg h']; unfold hset; rw [if_pos rfl]
    have hq : own (⟨q, o.size, .large n 0⟩ : Obj α) = some q := by unfold own; rw [if_neg (by simp [q1])]
    have ok : Ok P (hset m1 q (some b')) ⟨q, o.size, .large n 0⟩ b' := by
      refine ⟨?_, ?_, ?_, e3, by have := h.room; omega⟩
      · simp [getBuf, q1, hset]
      · simp [getCap, q1, e2]
      · simp [getLocks, locks, q1]
    refine ⟨_, _, _, rfl, ⟨⟨b', ok⟩, fun a ha hb => ?_, fun a => ?_, fun a ha => ?_⟩, ?_, ?_, rfl, .inl ⟨rfl, b', ok, by omega, by omega⟩⟩
    · rw [hq] at hb
      have : a ≠ q := fun e => hb (by rw [e])
      simp only [hset, if_neg this]; exact m1eq a ha
    · rw [hq]
      by_cases e : a = q
      · simp [hset, e]
      · have : some q ≠ some a := by simpa using fun h => e h.symm
        simp only [hset, if_neg e, this, false_or]
        by_cases ho : own o = some a
        · simp [m1no a ho, ho]
        · rw [m1eq a ho]; simp [ho]
    · rw [hq] at ha
      cases ha
      rcases q2 with h | h
      · exact .inr h
      · exact .inl h.2
    · rw [ok.content, h.content]; exact e4
    · have h0 : locks o = 0 := by omega
      rw [h0]; simp [locks, getLocks, q1]

/-- a change of the buffer -/
theorem edit_ok {P : Par α} {m o b f cs} (h : Ok P m o b) (E : Edits P.T f ⟨1, o.size, b⟩ cs) :
    ∃ m' o' b', edit m o f = some (m', o') ∧ Fr P m o m' o' ∧ Ok P m' o' b' ∧ content m' o' = cs ∧ locks o' = locks o ∧ b'.length = b.length ∧ o'.w0 = o.w0 := by
  obtain ⟨d, e, g, c, i, l⟩ := E
  have hg : Good P.T ⟨1, d.size, d.buf⟩ := ⟨g.le, g.live, g.rest⟩
  unfold edit
  rw [h.buf]; dsimp only; rw [e]; dsimp only
  by_cases hs : o.w0 % 2 = 1
  · have ok : Ok P m (⟨o.w0, d.size, .inside d.buf⟩ : Obj α) d.buf := by
      refine ⟨by simp [getBuf, hs], ?_, by simp [getLocks, locks, hs], hg, by rw [l]; exact h.room⟩
      have := h.cap
      simp only [getCap, hs, if_true] at this ⊢
      rw [l]; exact this
    have e1 : putBuf m { o with size := d.size } d.buf = (m, ⟨o.w0, d.size, .inside d.buf⟩) := by simp [putBuf, hs]
    have ow : own (⟨o.w0, d.size, .inside d.buf⟩ : Obj α) = none := by simp [own, hs]
    have ow' : own o = none := by simp [own, hs]
    refine ⟨m, ⟨o.w0, d.size, .inside d.buf⟩, d.buf, by rw [e1], ⟨⟨_, ok⟩, fun _ _ _ => rfl, fun a => by simp [ow, ow'], fun a h => by rw [ow] at h; cases h⟩, ok, ?_, ?_, l, rfl⟩
    · rw [ok.content]; exact c
    · simp [locks, getLocks, hs]
  · have e1 : putBuf m { o with size := d.size } d.buf = (hset m o.w0 (some d.buf), { o with size := d.size }) := by simp [putBuf, hs]
    have hb := h.buf
    have hc := h.cap
    have hl := h.lck
    obtain ⟨c0, k0, hbd⟩ : ∃ c k, o.body = .large c k := by
      cases hbd : o.body with
      | inside b0 => simp [getBuf, hs, hbd] at hb
      | large c0 k0 => exact ⟨_, _, rfl⟩
    · simp only [getBuf, hs, hbd, if_false] at hb
      simp only [getCap, hs, hbd, if_false, Option.some.injEq] at hc
      have ok : Ok P (hset m o.w0 (some d.buf)) { o with size := d.size } d.buf := by
        refine ⟨by simp [getBuf, hs, hbd, hset], by simp [getCap, hs, hbd, l, hc], by simp [getLocks, locks, hs, hbd], hg, by rw [l]; exact h.room⟩
      have ow : own ({ o with size := d.size } : Obj α) = own o := rfl
      have ow' : own o = some o.w0 := by simp [own, hs]
      refine ⟨_, _, d.buf, by rw [e1], ⟨⟨_, ok⟩, fun a h1 _ => ?_, fun a => ?_, fun a h => .inl h⟩, ok, ?_, ?_, l, rfl⟩
      · rw [ow'] at h1
        have : a ≠ o.w0 := fun e => h1 (by rw [e])
        simp [hset, this]
      · rw [ow, ow']
        by_cases e : a = o.w0
        · simp [hset, e]
        · have : some o.w0 ≠ some a := by simpa using fun h => e h.symm
          simp [hset, e, this]
      · rw [ok.content]; exact c
      · simp [locks, getLocks, hs, hbd]

theorem lock_ok {P : Par α} {m o b} (h : Ok P m o b) :
    ∃ o', lockObj o = some o' ∧ Fr P m o m o' ∧ Ok P m o' b ∧ content m o' = content m o ∧ locks o' = locks o + 1 ∧ o'.size = o.size := by
  unfold lockObj
  by_cases hs : o.w0 % 2 = 1
  · rw [if_pos hs]
    have e : ((o.w0 / 2 + 1) * 2 + 1) % 2 = 1 := by omega
    have e' : ((o.w0 / 2 + 1) * 2 + 1) / 2 = o.w0 / 2 + 1 := by omega
    have hb := h.buf; have hc := h.cap
    simp only [getBuf, hs, getCap, if_true] at hb hc
    have ok : Ok P m { o with w0 := (o.w0 / 2 + 1) * 2 + 1 } b :=
      ⟨by simp only [getBuf, e, if_true]; exact hb, by simp only [getCap, e, if_true]; exact hc, by simp [getLocks, locks, e], h.good, h.room⟩
    have ow : own ({ o with w0 := (o.w0 / 2 + 1) * 2 + 1 } : Obj α) = none := by simp [own, e]
    have ow' : own o = none := by simp [own, hs]
    refine ⟨_, rfl, ⟨⟨_, ok⟩, fun _ _ _ => rfl, fun a => by simp [ow, ow'], fun a h => by rw [ow] at h; cases h⟩, ok, ?_, ?_, rfl⟩
    · rw [ok.content, h.content]
    · simp only [locks, getLocks, e, hs, if_true, e', Option.getD_some]
  · rw [if_neg hs]
    have hb := h.buf; have hc := h.cap
    cases hbd : o.body with
    | inside b0 => simp [getBuf, hs, hbd] at hb
    | large c0 k0 =>
      simp only [getBuf, hs, hbd, if_false] at hb
      simp only [getCap, hs, hbd, if_false] at hc
      have ok : Ok P m { o with body := .large c0 (k0 + 1) } b :=
        ⟨by simp only [getBuf, hs, if_false]; exact hb, by simp only [getCap, hs, if_false]; exact hc, by simp [getLocks, locks, hs], h.good, h.room⟩
      have ow : own ({ o with body := .large c0 (k0 + 1) } : Obj α) = own o := rfl
      refine ⟨_, rfl, ⟨⟨_, ok⟩, fun _ _ _ => rfl, fun a => ?_, fun a h => .inl h⟩, ok, ?_, ?_, rfl⟩
      · rw [ow]; exact (Fr.refl h).dom a
      · rw [ok.content, h.content]
      · simp [locks, getLocks, hs, hbd]

theorem unlockObj_ok {P : Par α} {m o b} (h : Ok P m o b) (hl : 0 < locks o) :
    ∃ o', unlockObj o = some o' ∧ Fr P m o m o' ∧ Ok P m o' b ∧ content m o' = content m o ∧ locks o' + 1 = locks o ∧ o'.size = o.size := by
  unfold unlockObj
  by_cases hs : o.w0 % 2 = 1
  · rw [if_pos hs]
    have e : ((o.w0 / 2 - 1) * 2 + 1) % 2 = 1 := by omega
    have e' : ((o.w0 / 2 - 1) * 2 + 1) / 2 = o.w0 / 2 - 1 := by omega
    have hb := h.buf; have hc := h.cap
    simp only [getBuf, hs, getCap, if_true] at hb hc
    have ok : Ok P m { o with w0 := (o.w0 / 2 - 1) * 2 + 1 } b :=
      ⟨by simp only [getBuf, e, if_true]; exact hb, by simp only [getCap, e, if_true]; exact hc, by simp [getLocks, locks, e], h.good, h.room⟩
    have ow : own ({ o with w0 := (o.w0 / 2 - 1) * 2 + 1 } : Obj α) = none := by simp [own, e]
    have ow' : own o = none := by simp [own, hs]
    refine ⟨_, rfl, ⟨⟨_, ok⟩, fun _ _ _ => rfl, fun a => by simp [ow, ow'], fun a h => by rw [ow] at h; cases h⟩, ok, ?_, ?_, rfl⟩
    · rw [ok.content, h.content]
    · simp only [locks, getLocks, e, hs, if_true, e', Option.getD_some] at hl ⊢; omega
  · rw [if_neg hs]
    have hb := h.buf; have hc := h.cap
    cases hbd : o.body with
    | inside b0 => simp [getBuf, hs, hbd] at hb
    | large c0 k0 =>
      simp only [getBuf, hs, hbd, if_false] at hb
      simp only [getCap, hs, hbd, if_false] at hc
      have ok : Ok P m { o with body := .large c0 (k0 - 1) } b :=
        ⟨by simp only [getBuf, hs, if_false]; exact hb, by simp only [getCap, hs, if_false]; exact hc, by simp [getLocks, locks, hs], h.good, h.room⟩
      have ow : own ({ o with body := .large c0 (k0 - 1) } : Obj α) = own o := rfl
      refine ⟨_, rfl, ⟨⟨_, ok⟩, fun _ _ _ => rfl, fun a => ?_, fun a h => .inl h⟩, ok, ?_, ?_, rfl⟩
      · rw [ow]; exact (Fr.refl h).dom a
      · rw [ok.content, h.content]
      · simp [locks, getLocks, hs, hbd] at hl ⊢; omega

end Verif.Soo
