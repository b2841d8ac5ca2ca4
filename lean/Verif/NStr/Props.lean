import Verif.NStr.Enc
import Verif.Utf.Props

/-!
C58: changing an NString's encoding keeps its text, affects only that handle, and never lets its recorded
capacity exceed its storage.

The claim fails in several ways (`C58_…_fails`, Witness.lean); the `_partial` theorems cover every history
in which `SetEncoding` is only called in the cases `Allowed` describes.  What is missing is exactly the
complement: an empty NString that owns a buffer of another character width, an empty NString whose buffer
has exactly one other owner, and a change of byte order (or one of the three conversions that end with
one) of a non-empty text.
-/

namespace Verif.NStr

/-- the number of handles that have each block -/
def cnt (w : World) : Nat → Nat := fun a => w.hs.count a

/-- an operation names an existing handle, and a `SetEncoding` is none of the cases that break the memory -/
def Allowed (w : World) : Op → Prop
  | .new _ _ => True
  | .share i => i < w.hs.length
  | .del i => i < w.hs.length
  | .setString i _ _ => i < w.hs.length
  | .clear i => i < w.hs.length
  | .setCopy i j => i < w.hs.length ∧ j < w.hs.length ∧ i ≠ j
  | .setMove i j => i < w.hs.length ∧ j < w.hs.length ∧ i ≠ j
  | .setEncoding i e => ∃ p b, w.hs[i]? = some p ∧ w.st.blk p = some b ∧ Safe b e

/-- histories: any operations, any allocation failures -/
inductive Reach (C : Conv) (fail : Nat → Bool) : World → Prop
  | init : Reach C fail ⟨St.init, []⟩
  | step {w w' op} : Reach C fail w → Allowed w op → step C fail w op = some w' → Reach C fail w'

theorem init_inv : Inv St.init (cnt ⟨St.init, []⟩) where
  stat e := by cases e <;> rfl
  next := Nat.le_refl _
  fresh a ha := by
    dsimp only [St.init] at ha ⊢
    match a, ha with
    | a + 6, _ => rfl
  dead a _ _ := by simp [cnt]
  live a b ha hb := by
    dsimp only [St.init] at hb
    match a, ha with
    | a + 6, _ => cases hb

/-- the references of the other handles -/
def rest (w : World) (i : Nat) : Nat → Nat := fun a => (w.hs.eraseIdx i).count a

theorem count_split {l : List Nat} {i p : Nat} (h : l[i]? = some p) (a : Nat) :
    l.count a = plus (fun a => (l.eraseIdx i).count a) p a := by
  induction l generalizing i with
  | nil => simp at h
  | cons x l ih =>
    cases i with
    | zero =>
      simp at h; subst h
      unfold plus; simp only [List.eraseIdx_zero, List.tail_cons, List.count_cons]
      by_cases hxa : x = a
      · subst hxa; simp
      · have : ¬ a = x := fun h => hxa h.symm
        simp [hxa, this]
    | succ i =>
      have h' : l[i]? = some p := by simpa using h
      have := ih h'
      unfold plus at this ⊢
      simp only [List.eraseIdx_cons_succ, List.count_cons]
      rw [this]; dsimp only; split <;> omega

theorem eraseIdx_set {l : List Nat} {i q : Nat} : (l.set i q).eraseIdx i = l.eraseIdx i := by
  induction l generalizing i with
  | nil => simp
  | cons x l ih => cases i <;> simp [ih]

theorem cnt_split {w : World} {i p : Nat} (h : w.hs[i]? = some p) : cnt w = plus (rest w i) p := by
  funext a; exact count_split h a

theorem cnt_set {w : World} {i p q : Nat} {s : St} (h : w.hs[i]? = some p) :
    cnt ⟨s, w.hs.set i q⟩ = plus (rest w i) q := by
  obtain ⟨hi, -⟩ := List.getElem?_eq_some_iff.mp h
  have : (w.hs.set i q)[i]? = some q := by simp [List.getElem?_set, hi]
  funext a
  have := count_split this a
  rw [eraseIdx_set] at this
  exact this

theorem cnt_append {w : World} {q : Nat} {s : St} : cnt ⟨s, w.hs ++ [q]⟩ = plus (cnt w) q := by
  funext a; unfold cnt plus; simp only [List.count_append, List.count_singleton]
  by_cases h : q = a
  · subst h; simp
  · have : ¬ a = q := fun hh => h hh.symm
    simp [h, this]

theorem mem_eraseIdx {l : List Nat} {i j x : Nat} (h : l[j]? = some x) (hij : j ≠ i) : x ∈ l.eraseIdx i := by
  rw [List.mem_eraseIdx_iff_getElem?]; exact ⟨j, hij, h⟩

theorem rest_pos {w : World} {i j x : Nat} (h : w.hs[j]? = some x) (hij : j ≠ i) : 0 < rest w i x :=
  List.count_pos_iff.mpr (mem_eraseIdx h hij)

/-- an NString set from a String object by copying -/
theorem setCopy_world (fail : Nat → Bool) {C : Conv} {w : World} (h : Inv w.st (cnt w)) {i j p q : Nat} (hp : w.hs[i]? = some p) (hq : w.hs[j]? = some q) (hij : i ≠ j) :
    ∃ s', step C fail w (.setCopy i j) = some ⟨s', w.hs.set i q⟩ ∧ Inv s' (cnt ⟨s', w.hs.set i q⟩) ∧ Keep (rest w i) w.st s' := by
  rw [cnt_split hp] at h
  obtain ⟨s', e1, i1, k1⟩ := setCopy_ok fail (q := q) h (.inr (rest_pos hq (fun h => hij h.symm)))
  refine ⟨s', ?_, by rw [cnt_set hp]; exact i1, k1⟩
  unfold step; dsimp only; rw [hq]; dsimp only; unfold onHandle; rw [hp]; dsimp only; rw [e1]

/-- an NString set from a String object by moving -/
theorem setMove_world (fail : Nat → Bool) {C : Conv} {w : World} (h : Inv w.st (cnt w)) {i j p q : Nat} (hp : w.hs[i]? = some p) (hq : w.hs[j]? = some q) (hij : i ≠ j) (hpq : p ≠ q) :
    ∃ s' x, w.st.blk q = some x ∧ step C fail w (.setMove i j) = some ⟨s', (w.hs.set j (stat x.enc)).set i q⟩ ∧
      Inv s' (cnt ⟨s', (w.hs.set j (stat x.enc)).set i q⟩) ∧ Keep (plus (rest ⟨w.st, w.hs.set j (stat x.enc)⟩ i) q) w.st s' := by
  have hx := h
  rw [cnt_split hq] at hx
  obtain ⟨x, hx, -⟩ := hx.handle
  have hp1 : (w.hs.set j (stat x.enc))[i]? = some p := by rw [List.getElem?_set_ne (fun h => hij h.symm)]; exact hp
  have i1 : Inv w.st (plus (plus (rest ⟨w.st, w.hs.set j (stat x.enc)⟩ i) q) p) := by
    rw [plus_comm, ← cnt_split (w := ⟨w.st, w.hs.set j (stat x.enc)⟩) hp1, cnt_set hq, plus_comm, ← cnt_split hq]
    exact h.addStat x.enc
  obtain ⟨s', e1, i2, k1, -⟩ := release_ok i1
  refine ⟨s', x, hx, ?_, ?_, k1⟩
  · unfold step; dsimp only; rw [hp, hq]; dsimp only; unfold setMove; rw [if_neg hpq, hx]; dsimp only; rw [e1]; rfl
  · rw [cnt_set (w := ⟨w.st, w.hs.set j (stat x.enc)⟩) hp1]; exact i2

theorem setMove_same (fail : Nat → Bool) {C : Conv} {w : World} {i j p : Nat} (hp : w.hs[i]? = some p) (hq : w.hs[j]? = some p) :
    step C fail w (.setMove i j) = some w := by
  unfold step; dsimp only; rw [hp, hq]; dsimp only; unfold setMove; rw [if_pos rfl]; dsimp only [Option.map]
  have e1 : w.hs.set j p = w.hs := by
    obtain ⟨_, rfl⟩ := List.getElem?_eq_some_iff.mp hq; exact List.set_getElem_self _
  have e2 : w.hs.set i p = w.hs := by
    obtain ⟨_, rfl⟩ := List.getElem?_eq_some_iff.mp hp; exact List.set_getElem_self _
  rw [e1, e2]

/-- one allowed operation: it does not go wrong, the memory stays consistent -/
theorem step_inv (C : Conv) (fail : Nat → Bool) {w : World} (h : Inv w.st (cnt w)) {op : Op} (ha : Allowed w op) :
    ∃ w', step C fail w op = some w' ∧ Inv w'.st (cnt w') := by
  have on : ∀ (i : Nat) (f : St → Nat → Res) (Q : Hr → Blk → Prop), i < w.hs.length →
      (∀ p, w.hs[i]? = some p → Inv w.st (plus (rest w i) p) → Post (rest w i) w.st (f w.st p) Q) →
      ∃ w', onHandle w i f = some w' ∧ Inv w'.st (cnt w') := by
    intro i f Q hi hf
    have hp : w.hs[i]? = some w.hs[i] := List.getElem?_eq_getElem hi
    have h' := h
    rw [cnt_split hp] at h'
    obtain ⟨hr, s', q, x, e1, i1, k1, hx, hq⟩ := hf _ hp h'
    refine ⟨⟨s', w.hs.set i q⟩, ?_, ?_⟩
    · unfold onHandle; rw [hp]; dsimp only; rw [e1]
    · rw [cnt_set hp]; exact i1
  cases op with
  | new e t =>
    obtain ⟨hr, s', q, x, e1, i1, k1, hx, hq⟩ := setString_ok fail (h.addStat e) e t
    refine ⟨⟨s', w.hs ++ [q]⟩, ?_, ?_⟩
    · unfold step; dsimp only; rw [e1]
    · rw [cnt_append]; exact i1
  | share i =>
    have hp : w.hs[i]? = some w.hs[i] := List.getElem?_eq_getElem ha
    generalize w.hs[i] = p at hp
    obtain ⟨s', e1, i1, -⟩ := addRef_ok h (q := p) (.inr (List.count_pos_iff.mpr (List.mem_of_getElem? hp)))
    refine ⟨⟨s', w.hs ++ [p]⟩, ?_, ?_⟩
    · unfold step; dsimp only; rw [hp]; dsimp only; rw [e1]
    · rw [cnt_append]; exact i1
  | del i =>
    have hp : w.hs[i]? = some w.hs[i] := List.getElem?_eq_getElem ha
    generalize w.hs[i] = p at hp
    have h' := h
    rw [cnt_split hp] at h'
    obtain ⟨s', e1, i1, k1, -⟩ := release_ok h'
    exact ⟨⟨s', w.hs.eraseIdx i⟩, by unfold step; dsimp only; rw [hp]; dsimp only; rw [e1], i1⟩
  | setEncoding i e =>
    obtain ⟨p, b, hp, hb, hs⟩ := ha
    refine on i (fun s p => setEncoding C fail s p e) (fun _ _ => True) (List.getElem?_eq_some_iff.mp hp).1 (fun q hq hi => ?_)
    rw [hp] at hq; cases hq
    exact (setEncoding_ok C fail hi hb e hs).imp fun _ _ _ => trivial
  | setString i e t => exact on i (fun s p => setString fail s p e t) _ ha (fun q hq hi => setString_ok fail hi e t)
  | clear i => exact on i (fun s p => clear fail s p) _ ha (fun q hq hi => (clear_ok fail hi hi.handle.choose_spec.1).imp fun _ _ h => (⟨h.1, h.2.1⟩ : _ ∧ _))
  | setCopy i j =>
    obtain ⟨hi, hj, hij⟩ := ha
    obtain ⟨s', e1, i1, -⟩ := setCopy_world fail (C := C) h (List.getElem?_eq_getElem hi) (List.getElem?_eq_getElem hj) hij
    exact ⟨_, e1, i1⟩
  | setMove i j =>
    obtain ⟨hi, hj, hij⟩ := ha
    have hp := List.getElem?_eq_getElem hi
    have hq := List.getElem?_eq_getElem hj
    by_cases hpq : w.hs[i] = w.hs[j]
    · rw [← hpq] at hq; exact ⟨w, setMove_same fail hp hq, h⟩
    · obtain ⟨s', x, -, e1, i1, -⟩ := setMove_world fail (C := C) h hp hq hij hpq
      exact ⟨_, e1, i1⟩

theorem reach_inv {C : Conv} {fail : Nat → Bool} {w : World} (h : Reach C fail w) : Inv w.st (cnt w) := by
  induction h with
  | init => exact init_inv
  | step _ ha hs ih =>
    obtain ⟨w'', e, i⟩ := step_inv C fail ih ha
    rw [hs] at e; cases e; exact i

/-- C58 (memory part): no allowed operation of any history touches freed or foreign memory -/
theorem C58_no_ub_partial {C : Conv} {fail : Nat → Bool} {w : World} (h : Reach C fail w) {op : Op}
    (ha : Allowed w op) : ∃ w', step C fail w op = some w' := by
  obtain ⟨w', e, -⟩ := step_inv C fail (reach_inv h) ha
  exact ⟨w', e⟩

/-- size of a code unit in bytes -/
def unitSize (e : Enc) : Nat := if e = .u16le ∨ e = .u16be then 2 else if e = .u32le ∨ e = .u32be then 4 else 1

theorem width_unit (e : Enc) : width e = unitSize e := by cases e <;> simp [width, unitSize]

/-- C58 (capacity part): in every history of allowed operations the storage of every handle has room for
the recorded capacity and a terminator, in units of the handle's encoding, and the text fits -/
theorem C58_capacity_partial {C : Conv} {fail : Nat → Bool} {w : World} (h : Reach C fail w) {i p : Nat}
    (hp : w.hs[i]? = some p) :
    ∃ b, w.st.blk p = some b ∧ (b.cap + 1) * unitSize b.enc ≤ b.bytes ∧ b.text.length ≤ b.cap := by
  simp only [← width_unit]
  have hi := reach_inv h
  rw [cnt_split hp] at hi
  obtain ⟨b, hb, hlo, hhi⟩ := hi.handle
  by_cases h6 : p < 6
  · obtain ⟨e, rfl⟩ := lt_stat h6
    rw [hi.stat e] at hb; cases hb
    exact ⟨_, hi.stat e, by simp [emptyBlk, width_cls], by simp [emptyBlk]⟩
  · obtain ⟨-, -, g1, g2, -⟩ := hhi (by omega)
    exact ⟨b, hb, by omega, g1⟩

/-- the handles that an operation works on -/
def Op.targets : Op → List Nat
  | .setEncoding i _ => [i]
  | .setString i _ _ => [i]
  | .clear i => [i]
  | .setCopy i _ => [i]
  | .setMove i j => [i, j]
  | _ => []

/-- C58 (other handles): in every history of allowed operations, no operation changes the encoding or the
text of another handle -/
theorem C58_others_partial {C : Conv} {fail : Nat → Bool} {w w' : World} (h : Reach C fail w) {op : Op}
    (ha : Allowed w op) (hs : step C fail w op = some w') (hdel : ∀ i, op ≠ .del i) {j : Nat}
    (hj : j < w.hs.length) (hne : j ∉ op.targets) : view w' j = view w j := by
  have hi := reach_inv h
  have hpj : w.hs[j]? = some w.hs[j] := List.getElem?_eq_getElem hj
  generalize w.hs[j] = pj at hpj
  have on : ∀ (i : Nat) (f : St → Nat → Res) (Q : Hr → Blk → Prop), i < w.hs.length → i ≠ j →
      (∀ p, w.hs[i]? = some p → Inv w.st (plus (rest w i) p) → Post (rest w i) w.st (f w.st p) Q) →
      onHandle w i f = some w' → view w' j = view w j := by
    intro i f Q hil hij hf he
    have hp : w.hs[i]? = some w.hs[i] := List.getElem?_eq_getElem hil
    have h' := hi
    rw [cnt_split hp] at h'
    obtain ⟨hr, s', q, x, e1, i1, k1, hx, hq⟩ := hf _ hp h'
    unfold onHandle at he; rw [hp] at he; dsimp only at he; rw [e1] at he; cases he
    unfold view; dsimp only
    rw [List.getElem?_set_ne hij, hpj]
    exact k1 pj (.inr (rest_pos hpj (fun h => hij h.symm)))
  have hkeep : ∀ {s' : St} {q : Nat}, Keep (cnt w) w.st s' → view ⟨s', w.hs ++ [q]⟩ j = view w j := by
    intro s' q k
    unfold view; dsimp only
    rw [List.getElem?_append_left hj, hpj]
    exact k pj (.inr (List.count_pos_iff.mpr (List.mem_of_getElem? hpj)))
  cases op with
  | new e t =>
    obtain ⟨hr, s', q, x, e1, i1, k1, hx, hq⟩ := setString_ok fail (hi.addStat e) e t
    unfold step at hs; dsimp only at hs; rw [e1] at hs; cases hs
    exact hkeep k1
  | share i =>
    have hp : w.hs[i]? = some w.hs[i] := List.getElem?_eq_getElem ha
    generalize w.hs[i] = p at hp
    unfold step at hs; dsimp only at hs; rw [hp] at hs; dsimp only at hs
    unfold addRef at hs
    cases hb : w.st.blk p with
    | none => rw [hb] at hs; cases hs
    | some b =>
      rw [hb] at hs; dsimp only at hs
      by_cases hro : b.ro = true
      · rw [if_pos hro] at hs; cases hs; exact hkeep (Keep.refl _ _)
      · rw [if_neg hro] at hs; cases hs
        refine hkeep fun a _ => ?_
        unfold bview; dsimp only [St.set]; split
        · rename_i e; subst e; rw [hb]; rfl
        · rfl
  | del i => exact absurd rfl (hdel i)
  | setEncoding i e =>
    obtain ⟨p, b, hp, hb, hsf⟩ := ha
    refine on i (fun s p => setEncoding C fail s p e) (fun _ _ => True) (List.getElem?_eq_some_iff.mp hp).1 (fun h => hne (by rw [h]; simp [Op.targets])) (fun q hq hii => ?_) hs
    rw [hp] at hq; cases hq
    exact (setEncoding_ok C fail hii hb e hsf).imp fun _ _ _ => trivial
  | setString i e t =>
    exact on i (fun s p => setString fail s p e t) _ ha (fun h => hne (by rw [h]; simp [Op.targets])) (fun q hq hii => setString_ok fail hii e t) hs
  | clear i =>
    exact on i (fun s p => clear fail s p) _ ha (fun h => hne (by rw [h]; simp [Op.targets])) (fun q hq hii => (clear_ok fail hii hii.handle.choose_spec.1).imp fun _ _ h => (⟨h.1, h.2.1⟩ : _ ∧ _)) hs
  | setCopy i k =>
    obtain ⟨hil, hk, hik⟩ := ha
    have hij : i ≠ j := fun h => hne (by rw [h]; simp [Op.targets])
    obtain ⟨s', e1, -, k1⟩ := setCopy_world fail (C := C) hi (List.getElem?_eq_getElem hil) (List.getElem?_eq_getElem hk) hik
    rw [hs] at e1; cases e1
    unfold view; dsimp only
    rw [List.getElem?_set_ne hij, hpj]
    exact k1 pj (.inr (rest_pos hpj (fun h => hij h.symm)))
  | setMove i k =>
    obtain ⟨hil, hk, hik⟩ := ha
    have hij : i ≠ j := fun h => hne (by rw [h]; simp [Op.targets])
    have hkj : k ≠ j := fun h => hne (by rw [h]; simp [Op.targets])
    have hp := List.getElem?_eq_getElem hil
    have hq := List.getElem?_eq_getElem hk
    by_cases hpq : w.hs[i] = w.hs[k]
    · rw [← hpq] at hq; rw [setMove_same fail hp hq] at hs; cases hs; rfl
    · obtain ⟨s', x, -, e1, -, k1⟩ := setMove_world fail (C := C) hi hp hq hik hpq
      rw [hs] at e1; cases e1
      have hpj' : (w.hs.set k (stat x.enc))[j]? = some pj := by rw [List.getElem?_set_ne hkj]; exact hpj
      unfold view; dsimp only
      rw [List.getElem?_set_ne hij, hpj', hpj]
      exact k1.plus pj (.inr (rest_pos (w := ⟨w.st, w.hs.set k (stat x.enc)⟩) hpj' (fun h => hij h.symm)))

/-- destroying a handle leaves the others as they are -/
theorem C58_others_del_partial {C : Conv} {fail : Nat → Bool} {w w' : World} (h : Reach C fail w) {i : Nat}
    (ha : i < w.hs.length) (hs : step C fail w (.del i) = some w') {j : Nat} (hne : j ≠ i) {v : Enc × List Nat}
    (hv : view w j = some v) : view w' (if j < i then j else j - 1) = some v := by
  have hi := reach_inv h
  have hp : w.hs[i]? = some w.hs[i] := List.getElem?_eq_getElem ha
  generalize w.hs[i] = p at hp
  rw [cnt_split hp] at hi
  obtain ⟨s', e1, i1, k1, -⟩ := release_ok hi
  unfold step at hs; dsimp only at hs; rw [hp] at hs; dsimp only at hs; rw [e1] at hs; cases hs
  unfold view at hv ⊢
  cases hpj : w.hs[j]? with
  | none => rw [hpj] at hv; cases hv
  | some pj =>
    rw [hpj] at hv; dsimp only at hv ⊢
    have e2 : (w.hs.eraseIdx i)[if j < i then j else j - 1]? = some pj := by
      rw [List.getElem?_eraseIdx]
      by_cases hlt : j < i
      · rw [if_pos hlt, if_pos hlt]; exact hpj
      · rw [if_neg hlt, if_neg (by omega), show j - 1 + 1 = j by omega]; exact hpj
    rw [e2]; dsimp only
    exact (k1 pj (.inr (rest_pos hpj hne))).trans hv

/-- C58 (result): in every history, an allowed `SetEncoding` that reports success leaves the handle with
the new encoding and — code page to code page excepted — with the converted text; an empty text stays
empty -/
theorem C58_converts_partial {C : Conv} {fail : Nat → Bool} {w : World} (h : Reach C fail w) {i p : Nat} {b : Blk}
    (hp : w.hs[i]? = some p) (hb : w.st.blk p = some b) (e : Enc) (ha : Safe b e) {s' : St} {q : Nat}
    (hr : setEncoding C fail w.st p e = .ret .ok s' q) (hne : b.enc ≠ e) :
    ∃ x, s'.blk q = some x ∧ (b.text = [] → x.enc = e ∧ x.text = []) ∧
      (b.text ≠ [] → bothAnsi b.enc e = false → x.enc = e ∧ C.conv b.enc e b.text = some x.text) := by
  have hi := reach_inv h
  rw [cnt_split hp] at hi
  obtain ⟨hr', s1, q1, x, e1, i1, k1, hx, h1, h2, h3⟩ := setEncoding_ok C fail hi hb e ha
  rw [hr] at e1; cases e1
  refine ⟨x, hx, fun ht => ⟨(h2 hne ht).2 rfl, (h2 hne ht).1⟩, fun ht hba => ?_⟩
  rcases h3 hne ht hba with hh | hh
  · exact hh.2
  · exact absurd rfl hh.1

/-- C58: in every history, `SetString` that reports success leaves the handle with exactly the given text and encoding. -/
theorem C58_set_partial {C : Conv} {fail : Nat → Bool} {w : World} (h : Reach C fail w) {i p : Nat} (hp : w.hs[i]? = some p) (e : Enc) (t : List Nat) :
    ∃ hr s' q x, setString fail w.st p e t = .ret hr s' q ∧ s'.blk q = some x ∧ (hr = .ok → x.enc = e ∧ x.text = t) := by
  have hi := reach_inv h
  rw [cnt_split hp] at hi
  obtain ⟨hr, s', q, x, e1, -, -, hx, hq⟩ := setString_ok fail hi e t
  exact ⟨hr, s', q, x, e1, hx, hq⟩

/-- C58: in every history, `Clear` empties the text and keeps the encoding; a code page is kept if the string owns its storage (`C58_clear_fails` otherwise). -/
theorem C58_clear_partial {C : Conv} {fail : Nat → Bool} {w : World} (h : Reach C fail w) {i p : Nat} {b : Blk} (hp : w.hs[i]? = some p) (hb : w.st.blk p = some b) :
    ∃ s' q x, clear fail w.st p = .ret .ok s' q ∧ s'.blk q = some x ∧ x.text = [] ∧ ((∀ cp, b.enc ≠ .ansi cp) → x.enc = b.enc) ∧
      (∀ cp, b.enc = .ansi cp → b.shared = false → x.enc = b.enc) := by
  have hi := reach_inv h
  rw [cnt_split hp] at hi
  obtain ⟨hr, s', q, x, e1, -, -, hx, rfl, h1, h2, h3⟩ := clear_ok fail hi hb
  exact ⟨s', q, x, e1, hx, h1, h2, h3⟩

/-! ### The text, with the conversions of StringTransform.cpp -/

open Verif.Utf Verif.Utf.Spec in
/-- the conversion of non-empty text between Unicode encodings, as modelled in `Verif.Utf`; ANSI code
pages are left to `other` (they need the operating system's tables) -/
def utfUnits (other : Enc → Enc → List Nat → Option (List Nat)) (o e : Enc) (t : List Nat) : Option (List Nat) :=
  let run (f : Grow → List Nat → Dst → Utf.Res) : Option (List Nat) :=
    match f codeGrow t ⟨[], 0⟩ with
    | .ok d => some d.buf
    | _ => none
  match o, e with
  | .u8, .u16le => run u8to16LE
  | .u8, .u16be => run u8to16BE
  | .u8, .u32le => run u8to32LE
  | .u8, .u32be => run u8to32BE
  | .u16le, .u8 => run u16LEto8
  | .u16be, .u8 => run u16BEto8
  | .u16le, .u32le => run u16LEto32LE
  | .u16be, .u32le => run u16BEto32LE
  | .u16be, .u32be => run u16BEto32BE
  | .u32le, .u8 => run u32LEto8
  | .u32be, .u8 => run u32BEto8
  | .u32le, .u16le => run u32LEto16LE
  | .u32le, .u16be => run u32LEto16BE
  | .u32be, .u16le => run u32BEto16LE
  | .u32be, .u16be => run u32BEto16BE
  | .u16le, .u16be => run (Utf.endian swap16)
  | .u16be, .u16le => run (Utf.endian swap16)
  | .u32le, .u32be => run (Utf.endian swap32)
  | .u32be, .u32le => run (Utf.endian swap32)
  | o, e => other o e t

/-- the conversions of StringTransform.cpp; the buffer asked for is at least one unit per source unit -/
def utfConv (other : Enc → Enc → List Nat → Option (List Nat)) : Conv where
  conv := utfUnits other
  room _ _ t := t.length
  pos _ _ t h := List.length_pos_iff.mpr h

open Verif.Utf Verif.Utf.Spec in
/-- the code units of a text (a list of Unicode scalar values) in each Unicode encoding -/
def unitsOf : Enc → List Nat → Option (List Nat)
  | .ansi _, _ => none
  | .u8, l => some (utf8s l)
  | .u16le, l => some (utf16s l)
  | .u16be, l => some ((utf16s l).map rev16)
  | .u32le, l => some l
  | .u32be, l => some (l.map rev32)

theorem codeGrow_good : Utf.Good Utf.codeGrow := by
  intro c n c' h
  unfold Utf.codeGrow Utf.growRealloc at h
  simp only [Option.some.injEq] at h
  subst h
  split <;> omega

theorem codeGrow_total : Utf.Total Utf.codeGrow := fun c n => ⟨_, rfl⟩

open Verif.Utf Verif.Utf.Spec in
/-- C58 (text): in every history, an NString that has a well-formed Unicode text and is switched to
another Unicode encoding by an allowed `SetEncoding` that reports success has the same text in the new
encoding.  Excluded are the texts for which the conversion itself is wrong: U+E000 from UTF-16 (C03) and
characters above U+FFFF from UTF-32LE to UTF-16LE (C04). -/
theorem C58_text_partial {other} {fail : Nat → Bool} {w : World} (h : Reach (utfConv other) fail w) {i p : Nat}
    {b : Blk} (hp : w.hs[i]? = some p) (hb : w.st.blk p = some b) (l : List Nat)
    (hl : ∀ n ∈ l, Scalar n ∧ n ≠ 0xE000) (hu : unitsOf b.enc l = some b.text) (hne : b.text ≠ []) (e : Enc)
    (he : ∀ c, e ≠ .ansi c) (hd : dangling b.enc e = false)
    (hbmp : b.enc = .u32le → e = .u16le → ∀ n ∈ l, n < 0x10000) {s' : St} {q : Nat}
    (hr : setEncoding (utfConv other) fail w.st p e = .ret .ok s' q) :
    ∃ x, s'.blk q = some x ∧ x.enc = e ∧ unitsOf e l = some x.text := by
  by_cases hen : b.enc = e
  · unfold setEncoding at hr; rw [hb] at hr; dsimp only at hr; rw [if_pos hen] at hr; cases hr
    exact ⟨b, hb, hen, by rw [← hen]; exact hu⟩
  obtain ⟨x, hx, -, h2⟩ := C58_converts_partial h hp hb e (.inr (.inr ⟨hne, hd⟩)) hr hen
  have hba : bothAnsi b.enc e = false := by
    cases b.enc <;> cases e <;> first | rfl | exact absurd rfl (he _)
  obtain ⟨h3, h4⟩ := h2 hne hba
  refine ⟨x, hx, h3, ?_⟩
  have hs : ∀ n ∈ l, Scalar n := fun n hn => (hl n hn).1
  have hs4 : ∀ n ∈ l, n < 0x4000000 := fun n hn => by have := (hs n hn).1; omega
  obtain ⟨⟨_, a1⟩, ⟨_, a2⟩, ⟨_, a3⟩, ⟨_, a4⟩⟩ :=
    C01_utf8_decode codeGrow codeGrow_good codeGrow_total l hs ⟨[], 0⟩ (by simp)
  obtain ⟨m, _, b1, ⟨_, b2⟩, -, b3⟩ :=
    C02_round_trip_partial codeGrow codeGrow_good codeGrow_total l hs4 ⟨[], 0⟩ ⟨[], 0⟩ rfl (by simp)
  rw [b3 hs] at b1 b2
  obtain ⟨⟨_, c1⟩, ⟨_, c2⟩, ⟨_, c3⟩, ⟨_, c4⟩, ⟨_, c5⟩, ⟨_, c6⟩⟩ :=
    C03_utf16_decode_partial codeGrow codeGrow_good codeGrow_total l hl ⟨[], 0⟩ (by simp)
  obtain ⟨⟨_, d1⟩, ⟨_, d2⟩, ⟨_, d3⟩, d4⟩ :=
    C04_utf32_to_utf16_partial codeGrow codeGrow_good codeGrow_total l hs ⟨[], 0⟩ (by simp)
  simp only [List.nil_append] at a1 a2 a3 a4 c1 c2 c3 c4 c5 c6 d1 d2 d3 d4
  have key : utfUnits other b.enc e b.text = unitsOf e l := by
    revert hu hd hbmp hen
    generalize b.enc = o, b.text = t
    intro hu hd hbmp hen
    cases o <;> simp only [unitsOf, Option.some.injEq, reduceCtorEq] at hu <;> subst hu <;>
      cases e <;> first
        | exact absurd rfl (he _)
        | exact absurd rfl hen
        | (exfalso; revert hd; decide)
        | (simp only [utfUnits, unitsOf, a1, a2, a3, a4, b1, b2, c1, c2, c3, c5, c6, d1, d2, d3]; done)
        | (obtain ⟨_, d5⟩ := d4 (hbmp rfl rfl); simp only [utfUnits, unitsOf, d5])
  rw [← key]; exact h4

end Verif.NStr
