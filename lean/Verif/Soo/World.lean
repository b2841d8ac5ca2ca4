import Verif.Soo.Ops
import Verif.Arr.Claims

/-! Several arrays with small object optimisation: invariant of the heap and of all objects. -/
namespace Verif.Soo
open Verif.Arr (Slot Ty Buf Blk Al Good Edits newCapacity newCapacity_ge inserted removed)

variable {α : Type}

/-- every object is consistent, and the heap blocks are exactly those the objects own, each by one object -/
structure Inv (P : Par α) (s : St α) : Prop where
  ok : ∀ i o, get s i = some o → ∃ b, Ok P s.mem o b
  inj : ∀ i j o p a, get s i = some o → get s j = some p → own o = some a → own p = some a → i = j
  all : ∀ a, (s.mem a).isSome = true → ∃ i o, get s i = some o ∧ own o = some a

/-- what a user sees of array `i`: elements and number of locks -/
def view (s : St α) (i : Nat) : Option (List (Slot α) × Nat) := (get s i).map fun o => (content s.mem o, locks o)

theorem get_lt {s : St α} {i o} (h : get s i = some o) : i < s.hs.length := by
  unfold get at h
  rcases Nat.lt_or_ge i s.hs.length with h' | h'
  · exact h'
  · rw [List.getElem?_eq_none h'] at h; cases h

theorem get_set {m : Heap α} {l : List (Option (Obj α))} {i k : Nat} {x : Option (Obj α)} (h : i < l.length) :
    get ⟨m, l.set i x⟩ k = if k = i then x else (l[k]?).join := by
  unfold get
  by_cases e : k = i
  · subst e; rw [if_pos rfl, List.getElem?_set_self h]; rfl
  · rw [if_neg e, List.getElem?_set_ne (fun h => e h.symm)]

theorem get_put {s : St α} {i k m o} (h : i < s.hs.length) : get (put s i m o) k = if k = i then some o else get s k := get_set h

theorem content_same {m m' : Heap α} {o : Obj α} (h : ∀ a, own o = some a → m' a = m a) : getBuf m' o = getBuf m o := by
  unfold getBuf
  by_cases hs : o.w0 % 2 = 1
  · rw [if_pos hs, if_pos hs]
  · rw [if_neg hs, if_neg hs]
    have := h o.w0 (by simp [own, hs])
    cases o.body
    · rfl
    · exact this

theorem Ok.keep {P : Par α} {m m' : Heap α} {o : Obj α} {b} (h : Ok P m o b) (hm : ∀ a, own o = some a → m' a = m a) : Ok P m' o b ∧ Soo.content m' o = Soo.content m o := by
  have e := content_same hm
  exact ⟨⟨by rw [e]; exact h.buf, h.cap, h.lck, h.good, h.room⟩, by unfold Soo.content; rw [e]⟩

/-- an object changed on its own -/
theorem inv_put {P : Par α} {s : St α} {i o m' o'} (I : Inv P s) (hi : get s i = some o) (f : Fr P s.mem o m' o') :
    Inv P (put s i m' o') ∧ (∀ k, k ≠ i → view (put s i m' o') k = view s k) ∧ view (put s i m' o') i = some (content m' o', locks o') := by
  have hl := get_lt hi
  have oth : ∀ k p a, k ≠ i → get s k = some p → own p = some a → m' a = s.mem a := by
    intro k p a hk hp ha
    have h1 : own o ≠ some a := fun h => hk (I.inj k i p o a hp hi ha h)
    refine f.same a h1 fun h => ?_
    rcases f.new a h with h' | h'
    · exact h1 h'
    · obtain ⟨b, hb⟩ := I.ok k p hp
      rw [own_live hb ha] at h'; cases h'
  refine ⟨⟨fun k p hp => ?_, fun j k p q a hp hq ha hb => ?_, fun a ha => ?_⟩, fun k hk => ?_, ?_⟩
  · rw [get_put hl] at hp
    by_cases e : k = i
    · rw [if_pos e] at hp; cases hp; exact f.ok
    · rw [if_neg e] at hp
      obtain ⟨b, hb⟩ := I.ok k p hp
      exact ⟨b, (hb.keep fun a ha => oth k p a e hp ha).1⟩
  · rw [get_put hl] at hp hq
    have clash : ∀ k p, k ≠ i → get s k = some p → own p = some a → own o' ≠ some a := by
      intro k p hk hp ha h
      rcases f.new a h with h' | h'
      · exact hk (I.inj k i p o a hp hi ha h')
      · obtain ⟨b, hb⟩ := I.ok k p hp
        rw [own_live hb ha] at h'; cases h'
    by_cases e1 : j = i <;> by_cases e2 : k = i
    · rw [e1, e2]
    · rw [if_pos e1] at hp; rw [if_neg e2] at hq; cases hp; exact absurd ha (clash k q e2 hq hb)
    · rw [if_neg e1] at hp; rw [if_pos e2] at hq; cases hq; exact absurd hb (clash j p e1 hp ha)
    · rw [if_neg e1] at hp; rw [if_neg e2] at hq; exact I.inj j k p q a hp hq ha hb
  · rcases (f.dom a).1 ha with h | ⟨h, h'⟩
    · exact ⟨i, o', by rw [get_put hl, if_pos rfl], h⟩
    · obtain ⟨k, p, hp, hpa⟩ := I.all a h
      have : k ≠ i := by
        intro e; subst e; rw [hi] at hp; cases hp; exact h' hpa
      exact ⟨k, p, by rw [get_put hl, if_neg this]; exact hp, hpa⟩
  · unfold view
    rw [get_put hl, if_neg hk]
    cases hp : get s k with
    | none => rfl
    | some p =>
      obtain ⟨b, hb⟩ := I.ok k p hp
      rw [Option.map_some, Option.map_some]
      congr 2
      exact (hb.keep fun a ha => oth k p a hk hp ha).2
  · unfold view; rw [get_put hl, if_pos rfl]; rfl

theorem inv_new {P : Par α} {s : St α} (I : Inv P s) :
    Inv P { s with hs := s.hs ++ [some (fresh P)] } ∧ (∀ k, k ≠ s.hs.length → get { s with hs := s.hs ++ [some (fresh P)] } k = get s k) ∧
    get { s with hs := s.hs ++ [some (fresh P)] } s.hs.length = some (fresh P) := by
  have g1 : ∀ k, k ≠ s.hs.length → get { s with hs := s.hs ++ [some (fresh P)] } k = get s k := by
    intro k hk
    unfold get; dsimp only
    rcases Nat.lt_or_ge k s.hs.length with h | h
    · rw [List.getElem?_append_left h]
    · rw [List.getElem?_eq_none (by simp; omega), List.getElem?_eq_none h]
  have g2 : get { s with hs := s.hs ++ [some (fresh P)] } s.hs.length = some (fresh P) := by unfold get; simp
  refine ⟨⟨fun k p hp => ?_, fun j k p q a hp hq ha hb => ?_, fun a ha => ?_⟩, g1, g2⟩
  · by_cases e : k = s.hs.length
    · subst e; rw [g2] at hp; cases hp; exact ⟨_, fresh_ok P _⟩
    · rw [g1 k e] at hp; exact I.ok k p hp
  · have : ∀ k p, get { s with hs := s.hs ++ [some (fresh P)] } k = some p → own p = some a → get s k = some p := by
      intro k p hp ha
      by_cases e : k = s.hs.length
      · subst e; rw [g2] at hp; cases hp; rw [fresh_own] at ha; cases ha
      · rw [g1 k e] at hp; exact hp
    exact I.inj j k p q a (this j p hp ha) (this k q hq hb) ha hb
  · obtain ⟨k, p, hp, h⟩ := I.all a ha
    exact ⟨k, p, by rw [g1 k (by have := get_lt hp; omega)]; exact hp, h⟩

theorem inv_del {P : Par α} {s : St α} {i o m'} (I : Inv P s) (hi : get s i = some o) (h1 : ∀ a, own o ≠ some a → m' a = s.mem a) (h2 : ∀ a, own o = some a → m' a = none) :
    Inv P ⟨m', s.hs.set i none⟩ ∧ (∀ k, k ≠ i → view ⟨m', s.hs.set i none⟩ k = view s k) ∧ view ⟨m', s.hs.set i none⟩ i = none := by
  have hl := get_lt hi
  have g : ∀ k, get ⟨m', s.hs.set i none⟩ k = if k = i then none else get s k := fun k => get_set hl
  have oth : ∀ k p a, k ≠ i → get s k = some p → own p = some a → m' a = s.mem a :=
    fun k p a hk hp ha => h1 a fun h => hk (I.inj k i p o a hp hi ha h)
  refine ⟨⟨fun k p hp => ?_, fun j k p q a hp hq ha hb => ?_, fun a ha => ?_⟩, fun k hk => ?_, ?_⟩
  · rw [g] at hp
    by_cases e : k = i
    · rw [if_pos e] at hp; cases hp
    · rw [if_neg e] at hp
      obtain ⟨b, hb⟩ := I.ok k p hp
      exact ⟨b, (hb.keep fun a ha => oth k p a e hp ha).1⟩
  · rw [g] at hp hq
    split at hp
    · cases hp
    split at hq
    · cases hq
    exact I.inj j k p q a hp hq ha hb
  · dsimp only at ha
    by_cases e : own o = some a
    · rw [h2 a e] at ha; cases ha
    · rw [h1 a e] at ha
      obtain ⟨k, p, hp, hpa⟩ := I.all a ha
      have : k ≠ i := by
        intro e'; subst e'; rw [hi] at hp; cases hp; exact e hpa
      exact ⟨k, p, by rw [g, if_neg this]; exact hp, hpa⟩
  · unfold view
    rw [g, if_neg hk]
    cases hp : get s k with
    | none => rfl
    | some p =>
      obtain ⟨b, hb⟩ := I.ok k p hp
      rw [Option.map_some, Option.map_some]
      congr 2
      exact (hb.keep fun a ha => oth k p a hk hp ha).2
  · unfold view; rw [g, if_pos rfl]; rfl

/-! ### preconditions -/

/-- the allocator's answer for a call on array `i` -/
def AlW (P : Par α) (s : St α) (i : Nat) (al : Al) : Prop :=
  ∀ q, al = some q → q % 2 = 0 ∧ (s.mem q = none ∨ (P.T.triv = true ∧ ∃ o, get s i = some o ∧ own o = some q))

/-- a source outside of array `i` that lies within its array -/
def SrcW (s : St α) (i : Nat) : Src α → Prop
  | .ext _ => True
  | .of j off n => j ≠ i ∧ ∃ o, get s j = some o ∧ off + n ≤ o.size

def Src.len : Src α → Nat
  | .ext l => l.length
  | .of _ _ n => n

/-- capacity of array `i` -/
def cap (P : Par α) (s : St α) (i : Nat) : Nat := ((get s i).bind (getCap P)).getD 0

def size (s : St α) (i : Nat) : Nat := ((get s i).map (·.size)).getD 0

def lockCount (s : St α) (i : Nat) : Nat := ((get s i).map locks).getD 0

/-- preconditions of a call: the arrays exist; the allocator answers properly; sources lie outside of the array; sizes in bytes do not wrap; no array is destroyed or moved while locked -/
def Valid (P : Par α) (s : St α) : Op α → Prop
  | .new => True
  | .copy j al => (get s j).isSome ∧ Fits P (size s j) ∧ AlW P s s.hs.length al
  | .moveNew j => (get s j).isSome ∧ lockCount s j = 0
  | .del i => (get s i).isSome ∧ lockCount s i = 0
  | .clear i => (get s i).isSome
  | .setArr i src al => (get s i).isSome ∧ Fits P src.len ∧ AlW P s i al ∧ SrcW s i src
  | .assign i j al => (get s i).isSome ∧ (get s j).isSome ∧ Fits P (size s j) ∧ AlW P s i al
  | .moveAssign i j => (get s i).isSome ∧ (get s j).isSome ∧ lockCount s i = 0 ∧ lockCount s j = 0
  | .reserve i n al => (get s i).isSome ∧ Fits P (n + 15) ∧ AlW P s i al
  | .resize i n al => (get s i).isSome ∧ Fits P (n + 15) ∧ AlW P s i al
  | .lockSize i n al => (get s i).isSome ∧ Fits P (n + 15) ∧ AlW P s i al
  | .unlock i => (get s i).isSome
  | .write i _ _ => (get s i).isSome
  | .setItem i _ _ al => (get s i).isSome ∧ AlW P s i al
  | .addN i src al => (get s i).isSome ∧ Fits P (2 * cap P s i + src.len) ∧ AlW P s i al ∧ SrcW s i src
  | .insert i _ _ al => (get s i).isSome ∧ Fits P (2 * cap P s i + 1) ∧ AlW P s i al
  | .remove i _ _ al => (get s i).isSome ∧ Fits P (2 * cap P s i) ∧ AlW P s i al

/-- the elements a source designates, as the user sees them -/
def Src.vals (s : St α) : Src α → List (Slot α)
  | .ext l => l.map .val
  | .of j off n => (((view s j).map (·.1)).getD []).drop off |>.take n

theorem slots_ok {P : Par α} {s : St α} (I : Inv P s) {i src} (h : SrcW s i src) :
    slots s src = some (src.vals s) ∧ (∀ v ∈ src.vals s, v.alive = true) ∧ (src.vals s).length = src.len := by
  cases src with
  | ext l => exact ⟨rfl, by simp [Src.vals, Slot.alive], by simp [Src.vals, Src.len]⟩
  | of j off n =>
    obtain ⟨_, o, ho, hle⟩ := h
    obtain ⟨b, hb⟩ := I.ok j o ho
    have gl := hb.good.le
    dsimp only at gl
    have e : (Src.of j off n : Src α).vals s = (b.drop off).take n := by
      simp only [Src.vals, view, ho, Option.map_some, Option.getD_some, hb.content]
      rw [List.drop_take, List.take_take]
      congr 1; omega
    refine ⟨?_, fun v hv => ?_, ?_⟩
    · simp only [slots, ho, hb.buf]
      rw [if_neg (by omega), e]
    · have : (Src.of j off n : Src α).vals s = ((content s.mem o).drop off).take n := by
        simp only [Src.vals, view, ho, Option.map_some, Option.getD_some]
      rw [this] at hv
      have := List.mem_of_mem_drop (List.mem_of_mem_take hv)
      rw [hb.content'] at this
      exact Verif.Arr.content_alive hb.good v this
    · rw [e, List.length_take, List.length_drop]; simp only [Src.len]; omega

/-! ### the calls -/

/-- a call on array `i` ended, with `Q` for the elements and locks of array `i` (`thr`: an exception, array `i` as before), all other arrays as before -/
def Done (P : Par α) (s : St α) (i : Nat) (r : Out α) (Q : Hr → List (Slot α) → Nat → Prop) (Th : Prop) : Prop :=
  match r with
  | .ub | .abort => False
  | .thr s' => Inv P s' ∧ (∀ k, view s' k = view s k) ∧ s'.hs.length = s.hs.length ∧ Th
  | .ret hr s' => Inv P s' ∧ (∀ k, k ≠ i → view s' k = view s k) ∧ s'.hs.length = s.hs.length ∧ ∃ c l, view s' i = some (c, l) ∧ Q hr c l

theorem on_ok {P : Par α} {s : St α} (I : Inv P s) {i o f Q Th} (hi : get s i = some o) (h : Post P s.mem o (f s.mem o) Q Th) : Done P s i (on s i f) Q Th := by
  unfold on; rw [hi]; dsimp only
  generalize f s.mem o = r at h
  cases r with
  | ub => exact h
  | thr m' o' =>
    obtain ⟨fr, c, l, th⟩ := h
    obtain ⟨J, h1, h2⟩ := inv_put I hi fr
    refine ⟨J, fun k => ?_, by simp [put], th⟩
    by_cases e : k = i
    · subst e; rw [h2, c, l]; unfold view; rw [hi]; rfl
    · exact h1 k e
  | ret hr m' o' =>
    obtain ⟨fr, q⟩ := h
    obtain ⟨J, h1, h2⟩ := inv_put I hi fr
    exact ⟨J, h1, by simp [put], _, _, h2, q⟩

theorem alW {P : Par α} {s : St α} {i o al} (hi : get s i = some o) (h : AlW P s i al) : AlOk P s.mem o al := by
  intro q hq
  obtain ⟨h1, h2⟩ := h q hq
  refine ⟨h1, h2.imp id fun ⟨h3, o', h4, h5⟩ => ⟨h3, ?_⟩⟩
  rw [hi] at h4; cases h4; exact h5

theorem live {s : St α} {i} (h : (get s i).isSome = true) : ∃ o, get s i = some o := Option.isSome_iff_exists.1 h

theorem cap_eq {P : Par α} {s : St α} {i o b} (hi : get s i = some o) (h : Ok P s.mem o b) : cap P s i = b.length := by
  unfold cap; rw [hi]; simp [h.cap]

end Verif.Soo
