import Verif.Soo.Step

/-! C73: arrays with small object optimisation behave as lists. -/
namespace Verif.Soo
open Verif.Arr (Slot Ty Buf Blk Al Good newCapacity)

variable {α : Type}

/-- the template arguments make sense: elements have a size, the object fits in memory -/
structure Par.Wf (P : Par α) : Prop where
  pos : 0 < P.sz
  fit : 32 + P.sz * P.ins < 2 ^ 64

theorem Par.Wf.small {P : Par α} (W : P.Wf) : Fits P P.smallCap := by
  unfold Fits Par.smallCap
  have := Nat.div_mul_le_self (32 + P.sz * P.ins - 16) P.sz
  have := W.fit
  omega

def init : St α := ⟨fun _ => none, []⟩

/-- sequences of calls from `init`, each within its preconditions; a call may end with an exception -/
inductive Run (P : Par α) : List (Op α) → St α → Prop where
  | init : Run P [] init
  | ret {ops s op hr s'} : Run P ops s → Valid P s op → step P s op = .ret hr s' → Run P (ops ++ [op]) s'
  | thr {ops s op s'} : Run P ops s → Valid P s op → step P s op = .thr s' → Run P (ops ++ [op]) s'

theorem view_of {s : St α} {i o} (h : get s i = some o) : view s i = some (content s.mem o, locks o) := by simp [view, h]

theorem view_lock {s : St α} {j} (h : (get s j).isSome = true) (hl : lockCount s j = 0) : ∃ c, view s j = some (c, 0) := by
  obtain ⟨o, ho⟩ := live h
  exact ⟨content s.mem o, by rw [view_of ho]; simp [lockCount, ho] at hl; rw [hl]⟩

/-- a move to a new array -/
theorem moveNew_step {P : Par α} (W : P.Wf) {s : St α} (I : Inv P s) {j c} (hj : view s j = some (c, 0)) :
    ∃ s', step P s (.moveNew j) = .ret .ok s' ∧ Inv P s' ∧ (∀ k, k ≠ s.hs.length → k ≠ j → view s' k = view s k) ∧ view s' s.hs.length = some (c, 0) ∧
      view s' j = some (if isLarge s j then [] else c, 0) := by
  obtain ⟨J, h1, h2⟩ := inv_new I
  have hjl : j ≠ s.hs.length := by
    intro e
    cases h : get s j with
    | none => simp [view, h] at hj
    | some o => have := get_lt h; omega
  have v1 : ∀ k, k ≠ s.hs.length → view { s with hs := s.hs ++ [some (fresh P)] } k = view s k := fun k hk => by unfold view; rw [h1 k hk]
  obtain ⟨s', a, b, _, d, e, f⟩ := move_step W.pos W.small J (Ne.symm hjl) (by rw [view_of h2, fresh_content, fresh_locks]) (by rw [v1 j hjl]; exact hj)
  refine ⟨s', a, b, fun k hk hkj => by rw [d k hk hkj, v1 k hk], e, ?_⟩
  rw [f]; unfold isLarge; rw [h1 j hjl]

theorem moveAssign_step {P : Par α} (W : P.Wf) {s : St α} (I : Inv P s) {i j ci c} (hij : i ≠ j) (hi : view s i = some (ci, 0)) (hj : view s j = some (c, 0)) :
    ∃ s', step P s (.moveAssign i j) = .ret .ok s' ∧ Inv P s' ∧ (∀ k, k ≠ i → k ≠ j → view s' k = view s k) ∧ view s' i = some (c, 0) ∧
      view s' j = some (if isLarge s j then [] else c, 0) := by
  obtain ⟨s', a, b, _, d⟩ := move_step W.pos W.small I hij hi hj
  exact ⟨s', by simp only [step, if_neg hij]; exact a, b, d⟩

theorem step_inv {P : Par α} (W : P.Wf) {s : St α} (I : Inv P s) {op : Op α} (hv : Valid P s op) :
    ∃ s', Inv P s' ∧ (step P s op = .thr s' ∨ ∃ hr, step P s op = .ret hr s') := by
  cases hs : op.self? with
  | some i =>
    have : ∃ o, get s i = some o := by
      cases op <;> simp only [Op.self?, Option.some.injEq, reduceCtorEq] at hs <;> subst hs <;> first | exact live hv.1 | exact live hv
    obtain ⟨o, ho⟩ := this
    have D := member_step W.pos I hv hs ho
    generalize step P s op = r at D
    cases r with
    | ub => exact D.elim
    | abort => exact D.elim
    | thr s' => exact ⟨s', D.1, .inl rfl⟩
    | ret hr s' => exact ⟨s', D.1, .inr ⟨hr, rfl⟩⟩
  | none =>
    cases op <;> simp only [Op.self?, reduceCtorEq] at hs
    · obtain ⟨s', a, b, _⟩ := new_step I
      exact ⟨s', b, .inr ⟨_, a⟩⟩
    · obtain ⟨o, ho⟩ := live hv.1
      rcases copy_step W.pos I hv (view_of ho) with ⟨s', a, b, _⟩ | ⟨a, _⟩
      · exact ⟨s', b, .inr ⟨_, a⟩⟩
      · exact ⟨s, I, .inl a⟩
    · obtain ⟨c, hc⟩ := view_lock hv.1 hv.2
      obtain ⟨s', a, b, _⟩ := moveNew_step W I hc
      exact ⟨s', b, .inr ⟨_, a⟩⟩
    · obtain ⟨s', a, b, _⟩ := del_step I hv
      exact ⟨s', b, .inr ⟨_, a⟩⟩
    · rename_i i j
      obtain ⟨c, hc⟩ := view_lock hv.1 hv.2.2.1
      obtain ⟨d, hd⟩ := view_lock hv.2.1 hv.2.2.2
      by_cases e : i = j
      · exact ⟨s, I, .inr ⟨.ok, by simp only [step, if_pos e]⟩⟩
      · obtain ⟨s', a, b, _⟩ := moveAssign_step W I e hc hd
        exact ⟨s', b, .inr ⟨_, a⟩⟩

theorem inv_init (P : Par α) : Inv P (init : St α) :=
  ⟨fun i o h => by simp [get, init] at h, fun i j o p a h => by simp [get, init] at h, fun a h => by simp [init] at h⟩

theorem run_inv {P : Par α} (W : P.Wf) {ops : List (Op α)} {s} (r : Run P ops s) : Inv P s := by
  induction r with
  | init => exact inv_init P
  | ret _ hv e ih =>
    obtain ⟨s', I, h⟩ := step_inv W ih hv
    rcases h with h | ⟨hr, h⟩ <;> rw [h] at e <;> cases e
    exact I
  | thr _ hv e ih =>
    obtain ⟨s', I, h⟩ := step_inv W ih hv
    rcases h with h | ⟨hr, h⟩ <;> rw [h] at e <;> cases e
    exact I

/-- **C73 (partial).** In any sequence of calls within their preconditions no call has undefined behaviour or aborts. Missing: the sizes in bytes must not wrap (`Fits` in `Valid`); the code does not check this, see
`C73_overflow_fails`. -/
theorem C73_safe_partial {P : Par α} (W : P.Wf) {ops s op} (r : Run P ops s) (hv : Valid P s op) : step P s op ≠ .ub ∧ step P s op ≠ .abort := by
  obtain ⟨s', _, h⟩ := step_inv W (run_inv W r) hv
  rcases h with h | ⟨hr, h⟩ <;> rw [h] <;> exact ⟨nofun, nofun⟩

/-- **C73 (partial).** A member function changes its array as the list operation does, or says why not and changes nothing; all other arrays stay as they are. Missing: for types with constructors, `Insert` and
`Remove` in the middle (as in C19); sizes in bytes that wrap. -/
theorem C73_list_ops_partial {P : Par α} (W : P.Wf) {ops s op i c0 l0} (r : Run P ops s) (hv : Valid P s op) (hi : op.self? = some i) (h0 : view s i = some (c0, l0)) :
    (∃ s', step P s op = .thr s' ∧ (∀ k, view s' k = view s k) ∧ mayThrow c0.length l0 op) ∨
    (∃ hr s' c l, step P s op = .ret hr s' ∧ (∀ k, k ≠ i → view s' k = view s k) ∧ view s' i = some (c, l) ∧
      (hr = .ok → l = lockOp l0 op ∧ (P.T.triv = true ∨ Smooth c0.length op → c = listOp (.val P.T.z) .val (op.src s) c0 op)) ∧
      (hr ≠ .ok → mayFail c0.length l0 op hr ∧ c = c0 ∧ l = l0)) := by
  have I := run_inv W r
  obtain ⟨o, ho⟩ : ∃ o, get s i = some o := by
    cases h : get s i with
    | none => simp [view, h] at h0
    | some d => exact ⟨d, rfl⟩
  rw [view_of ho] at h0
  cases h0
  have D := member_step W.pos I hv hi ho
  generalize step P s op = r at D
  cases r with
  | ub => exact D.elim
  | abort => exact D.elim
  | thr s' => exact .inl ⟨s', rfl, D.2.1, D.2.2.2⟩
  | ret hr s' =>
    obtain ⟨_, a, _, c, l, b, e1, e2⟩ := D
    exact .inr ⟨hr, s', c, l, rfl, a, b, e1, e2⟩

/-- the number of elements a call wants room for -/
def Op.need (n : Nat) : Op α → Nat
  | .setArr _ src _ => src.len
  | .reserve _ k _ => k
  | .addN _ src _ => n + src.len
  | .insert _ _ _ _ => n + 1
  | _ => n

theorem withLock_room {P : Par α} {m o b need grow al f} (h : Ok P m o b) (hn : need ≤ b.length) : withLock P m o need grow al f = .ub ∨ ∃ m' o', withLock P m o need grow al f = .ret .ok m' o' := by
  unfold withLock acquire
  rw [h.cap]; dsimp only
  rw [if_pos hn]; dsimp only
  cases lockObj o with
  | none => exact .inl rfl
  | some o2 =>
    dsimp only
    cases edit m o2 f with
    | none => exact .inl rfl
    | some p =>
      obtain ⟨m2, o2⟩ := p
      dsimp only
      cases unlockObj o2 with
      | none => exact .inl rfl
      | some o3 => exact .inr ⟨_, _, rfl⟩

theorem on_room {s : St α} {i o f} (ho : get s i = some o) (h : ∀ hr m' o', f s.mem o = .ret hr m' o' → hr ≠ .oom ∧ hr ≠ .inval) {hr s'} (e : on s i f = .ret hr s') : hr ≠ .oom ∧ hr ≠ .inval := by
  unfold on at e; rw [ho] at e; dsimp only at e
  cases hf : f s.mem o with
  | ub => rw [hf] at e; cases e
  | thr _ _ => rw [hf] at e; cases e
  | ret hr' m' o' => rw [hf] at e; cases e; exact h _ _ _ hf

/-- No memory is needed while the elements fit: then a call never fails for lack of memory, whatever the allocator would answer, locked or not (a locked array just cannot be shortened). The capacity is never less than that of the buffer inside the object. -/
theorem C73_room {P : Par α} (W : P.Wf) {ops s op i c0 l0 hr s'} (r : Run P ops s) (hv : Valid P s op) (hi : op.self? = some i) (h0 : view s i = some (c0, l0))
    (hop : (∀ n al, op ≠ .resize i n al) ∧ (∀ n al, op ≠ .lockSize i n al) ∧ (∀ src al, op = .setArr i src al → l0 = 0))
    (hn : op.need c0.length ≤ cap P s i) (e : step P s op = .ret hr s') : (hr ≠ .oom ∧ hr ≠ .inval) ∧ (32 + P.sz * P.ins - 16) / P.sz ≤ cap P s i := by
  have I := run_inv W r
  obtain ⟨o, ho⟩ : ∃ o, get s i = some o := by
    cases h : get s i with
    | none => simp [view, h] at h0
    | some d => exact ⟨d, rfl⟩
  rw [view_of ho] at h0
  cases h0
  obtain ⟨b, hb⟩ := I.ok i o ho
  rw [cap_eq ho hb] at hn ⊢
  refine ⟨?_, hb.room⟩
  have len := hb.len
  have viaInc : ∀ inc al f, o.size + inc ≤ b.length → ∀ hr m' o', withInc P s.mem o inc al f = .ret hr m' o' → hr ≠ .oom ∧ hr ≠ .inval := by
    intro inc al f h hr m' o' e
    unfold withInc at e; rw [hb.cap] at e; dsimp only at e
    rcases withLock_room (al := al) (f := f) (grow := newCapacity b.length (o.size + inc)) hb h with h' | ⟨_, _, h'⟩ <;> rw [h'] at e <;> cases e
    exact ⟨nofun, nofun⟩
  have viaClear : ∀ hr m' o', clear P s.mem o = .ret hr m' o' → hr ≠ .oom ∧ hr ≠ .inval := by
    intro hr m' o' e
    have A := clear_ok hb
    rw [e] at A
    rw [A.2.1]; exact ⟨nofun, nofun⟩
  cases op with
  | new => cases hi
  | copy _ _ => cases hi
  | moveNew _ => cases hi
  | del _ => cases hi
  | moveAssign _ _ => cases hi
  | resize i' n al => cases hi; exact absurd rfl (hop.1 n al)
  | lockSize i' n al => cases hi; exact absurd rfl (hop.2.1 n al)
  | clear i' => cases hi; exact on_room ho viaClear e
  | setArr i' src al =>
    cases hi
    obtain ⟨_, hf, ha, hs⟩ := hv
    obtain ⟨e1, alv, ln⟩ := slots_ok I hs
    simp only [step, e1] at e
    refine on_room ho (fun hr m' o' h => ?_) e
    obtain ⟨m1, o1, h2⟩ := (setArr_ok hb W.pos (by rw [ln]; exact hf) (alW ho ha) alv).2 (by rw [ln]; exact hn) (hop.2.2 src al rfl)
    rw [h2] at h; cases h; exact ⟨nofun, nofun⟩
  | assign i' j al =>
    cases hi
    simp only [step] at e
    split at e
    · cases e; exact ⟨nofun, nofun⟩
    cases hj : get s j with
    | none => rw [hj] at e; cases e
    | some p =>
      rw [hj] at e; dsimp only at e
      split at e
      · cases e
      · split at e
        · cases e; exact ⟨nofun, nofun⟩
        · cases e
        · rename_i hx; exact absurd e (hx _ _)
  | reserve i' n al =>
    cases hi
    refine on_room (f := fun m o => reserve P m o n al) ho (fun hr m' o' h => ?_) e
    unfold reserve at h
    rcases withLock_room (need := n) (al := al) (f := some) (grow := up16 n) hb hn with h' | ⟨_, _, h'⟩ <;> rw [h'] at h <;> cases h
    exact ⟨nofun, nofun⟩
  | unlock i' =>
    cases hi
    refine on_room ho (fun hr m' o' h => ?_) e
    have A := unlock_ok hb
    rw [h] at A
    rw [A.2.1]; exact ⟨nofun, nofun⟩
  | write i' k v =>
    cases hi
    refine on_room (f := fun m o => write P m o k v) ho (fun hr m' o' h => ?_) e
    have A := write_ok (k := k) (v := v) hb
    rw [h] at A
    rw [A.2.2.2.1]; exact ⟨nofun, nofun⟩
  | setItem i' k v al =>
    cases hi
    refine on_room (f := fun m o => setItem P m o k v al) ho (fun hr m' o' h => ?_) e
    unfold setItem at h
    split at h
    · cases h; exact ⟨nofun, nofun⟩
    · exact viaInc _ _ _ (by have := hb.good.le; dsimp only at this; omega) _ _ _ h
  | addN i' src al =>
    cases hi
    obtain ⟨_, hf, ha, hs⟩ := hv
    obtain ⟨e1, alv, ln⟩ := slots_ok I hs
    simp only [step, e1] at e
    refine on_room ho (fun hr m' o' h => ?_) e
    unfold addN at h
    split at h
    · cases h; exact ⟨nofun, nofun⟩
    · exact viaInc _ _ _ (by rw [ln, ← len]; exact hn) _ _ _ h
  | insert i' k v al =>
    cases hi
    refine on_room (f := fun m o => insert P m o k v al) ho (fun hr m' o' h => ?_) e
    unfold insert at h
    split at h
    · cases h; exact ⟨nofun, nofun⟩
    · exact viaInc _ _ _ (by rw [← len]; exact hn) _ _ _ h
  | remove i' k n al =>
    cases hi
    refine on_room (f := fun m o => remove P m o k n al) ho (fun hr m' o' h => ?_) e
    unfold remove at h
    dsimp only at h
    split at h
    · cases h; exact ⟨nofun, nofun⟩
    split at h
    · cases h; exact ⟨nofun, nofun⟩
    split at h
    · split at h
      · exact viaClear _ _ _ h
      · exact viaInc _ _ _ (by have := hb.good.le; dsimp only at this; omega) _ _ _ h
    · split at h
      · exact viaClear _ _ _ h
      · exact viaInc _ _ _ (by have := hb.good.le; dsimp only at this; omega) _ _ _ h

/-- A copy has the elements of its source and is not locked; it fails only for lack of memory, and then nothing changed. -/
theorem C73_copy {P : Par α} (W : P.Wf) {ops s j al c l} (r : Run P ops s) (hv : Valid P s (.copy j al)) (hc : view s j = some (c, l)) :
    (∃ s', step P s (.copy j al) = .ret .ok s' ∧ s'.hs.length = s.hs.length + 1 ∧ (∀ k, k ≠ s.hs.length → view s' k = view s k) ∧ view s' s.hs.length = some (c, 0)) ∨
    (step P s (.copy j al) = .thr s ∧ al = none) := by
  rcases copy_step W.pos (run_inv W r) hv hc with ⟨s', a, _, b⟩ | h
  · exact .inl ⟨s', a, b⟩
  · exact .inr h

/-- A move, by construction or assignment, needs no memory and gives the elements to the destination. A source with a heap block is empty afterwards; a source in its small form keeps its elements. -/
theorem C73_move {P : Par α} (W : P.Wf) {ops s j c} (r : Run P ops s) (hj : view s j = some (c, 0)) :
    (∃ s', step P s (.moveNew j) = .ret .ok s' ∧ (∀ k, k ≠ s.hs.length → k ≠ j → view s' k = view s k) ∧ view s' s.hs.length = some (c, 0) ∧
      view s' j = some (if isLarge s j then [] else c, 0)) ∧
    ∀ i ci, i ≠ j → view s i = some (ci, 0) →
      ∃ s', step P s (.moveAssign i j) = .ret .ok s' ∧ (∀ k, k ≠ i → k ≠ j → view s' k = view s k) ∧ view s' i = some (c, 0) ∧
        view s' j = some (if isLarge s j then [] else c, 0) := by
  constructor
  · obtain ⟨s', a, _, b⟩ := moveNew_step W (run_inv W r) hj
    exact ⟨s', a, b⟩
  · intro i ci hij hi
    obtain ⟨s', a, _, b⟩ := moveAssign_step W (run_inv W r) hij hi hj
    exact ⟨s', a, b⟩

/-- A locked array is never moved from, moved to or destroyed: the program aborts. -/
theorem C73_locked {P : Par α} (W : P.Wf) {ops s j c l} (r : Run P ops s) (hj : view s j = some (c, l)) :
    (0 < l → step P s (.moveNew j) = .abort ∧ step P s (.del j) = .abort) ∧
    ∀ i ci li, i ≠ j → view s i = some (ci, li) → 0 < l ∨ 0 < li → step P s (.moveAssign i j) = .abort := by
  have I := run_inv W r
  have key : ∀ k c l, view s k = some (c, l) → ∃ o b, get s k = some o ∧ Ok P s.mem o b ∧ locks o = l := by
    intro k c l h
    cases hg : get s k with
    | none => simp [view, hg] at h
    | some o =>
      obtain ⟨b, hb⟩ := I.ok k o hg
      rw [view_of hg] at h; cases h
      exact ⟨o, b, rfl, hb, rfl⟩
  obtain ⟨e, b, he, hb, hl⟩ := key j c l hj
  refine ⟨fun h => ⟨?_, ?_⟩, fun i ci li hij hi h => ?_⟩
  · obtain ⟨_, h1, h2⟩ := inv_new I
    have hjl : j ≠ s.hs.length := by have := get_lt he; omega
    simp only [step, moveTo, h2, h1 j hjl, he, hb.lck]
    rw [show getLocks (fresh P) = some 0 by simp [getLocks, fresh]]
    dsimp only
    rw [if_pos (.inr (by omega))]
  · simp only [step, he, (destroy_ok hb).1 (by omega)]
  · obtain ⟨d, bd, hd, hbd, hld⟩ := key i ci li hi
    simp only [step, if_neg hij, moveTo, hd, he, hb.lck, hbd.lck]
    rw [if_pos (by omega)]

/-- construction without elements, and destruction -/
theorem C73_new_del {P : Par α} (W : P.Wf) {ops s} (r : Run P ops s) :
    (∃ s', step P s .new = .ret .ok s' ∧ (∀ k, k ≠ s.hs.length → view s' k = view s k) ∧ view s' s.hs.length = some ([], 0)) ∧
    ∀ i, Valid P s (.del i) → ∃ s', step P s (.del i) = .ret .ok s' ∧ (∀ k, k ≠ i → view s' k = view s k) ∧ view s' i = none := by
  constructor
  · obtain ⟨s', a, _, _, b⟩ := new_step (run_inv W r)
    exact ⟨s', a, b⟩
  · intro i hv
    obtain ⟨s', a, _, _, b⟩ := del_step (run_inv W r) hv
    exact ⟨s', a, b⟩

/-- Every heap block belongs to exactly one array in its large form, and every such array has its block: no leak, no block freed twice. Once all arrays are destroyed the heap is empty. -/
theorem C73_memory {P : Par α} (W : P.Wf) {ops s} (r : Run P ops s) :
    (∀ a, (s.mem a).isSome = true → ∃ i, ∀ j o, get s j = some o ∧ own o = some a ↔ j = i ∧ get s i = some o ∧ own o = some a) ∧
    (∀ i o a, get s i = some o → own o = some a → ∃ b, s.mem a = some b ∧ o.size ≤ b.length) ∧
    ((∀ i, view s i = none) → ∀ a, s.mem a = none) := by
  have I := run_inv W r
  refine ⟨fun a ha => ?_, fun i o a ho h => ?_, fun h a => ?_⟩
  · obtain ⟨i, o, ho, hoa⟩ := I.all a ha
    refine ⟨i, fun j p => ⟨fun ⟨hp, hpa⟩ => ?_, fun ⟨e, hp, hpa⟩ => ⟨e ▸ hp, hpa⟩⟩⟩
    have := I.inj j i p o a hp ho hpa hoa
    subst this
    exact ⟨rfl, hp, hpa⟩
  · obtain ⟨b, hb⟩ := I.ok i o ho
    obtain ⟨hs, rfl⟩ := own_some h
    have h1 := hb.buf
    have h2 := hb.good.le
    refine ⟨b, ?_, h2⟩
    simp only [getBuf, hs, if_false] at h1
    split at h1
    · cases h1
    · exact h1
  · cases hm : s.mem a with
    | none => rfl
    | some b =>
      obtain ⟨i, o, ho, _⟩ := I.all a (by rw [hm]; rfl)
      have := h i
      rw [view_of ho] at this; cases this

end Verif.Soo
