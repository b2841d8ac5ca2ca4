import Verif.Soo.World

/-! What one call does to the arrays. -/
namespace Verif.Soo
open Verif.Arr (Slot Ty Buf Blk Al Good Edits newCapacity inserted removed insertMess_ok removeMess_ok)

variable {α : Type}

/-! ### specification in terms of lists -/

/-- the array a call works on -/
def Op.self? : Op α → Option Nat
  | .clear i | .setArr i _ _ | .assign i _ _ | .reserve i _ _ | .resize i _ _ | .lockSize i _ _ | .unlock i | .write i _ _ | .setItem i _ _ _ | .addN i _ _ | .insert i _ _ _ | .remove i _ _ _ => some i
  | .new | .copy _ _ | .moveNew _ | .del _ | .moveAssign _ _ => none

/-- the answer of the allocator -/
def Op.al : Op α → Al
  | .setArr _ _ al | .assign _ _ al | .reserve _ _ al | .resize _ _ al | .lockSize _ _ al | .setItem _ _ _ al | .addN _ _ al | .insert _ _ _ al | .remove _ _ _ al | .copy _ al => al
  | _ => some 0

/-- the effect of a call on the elements: `z` a zero element, `inj` an element from a value, `src` the elements given -/
def listOp {β : Type} (z : β) (inj : α → β) (src l : List β) : Op α → List β
  | .clear _ => []
  | .setArr _ _ _ => src
  | .assign _ _ _ => src
  | .resize _ n _ => l.take n ++ List.replicate (n - l.length) z
  | .lockSize _ n _ => l.take n ++ List.replicate (n - l.length) z
  | .write _ k v => l.set k (inj v)
  | .setItem _ k v _ => l.set k (inj v)
  | .addN _ _ _ => l ++ src
  | .insert _ k v _ => l.take k ++ inj v :: l.drop k
  | .remove _ k n _ => l.take k ++ l.drop (k + n)
  | _ => l

/-- the effect on the number of locks -/
def lockOp (l : Nat) : Op α → Nat
  | .lockSize _ _ _ => l + 1
  | .unlock _ => l - 1
  | _ => l

/-- reasons for an error code, for an array with `n` elements and `l` locks -/
def mayFail (n l : Nat) (op : Op α) : Hr → Prop
  | .ok => False
  | .bounds => match op with
    | .setItem _ k _ _ => n ≤ k
    | .insert _ k _ _ => n < k
    | _ => False
  | .oom | .inval => op.al = none ∨ 0 < l

/-- reasons for an exception -/
def mayThrow (n l : Nat) : Op α → Prop
  | .clear _ | .resize _ _ _ | .lockSize _ _ _ | .remove _ _ _ _ => 0 < l
  | .unlock _ => l = 0
  | .write _ k _ => n ≤ k
  | .assign _ _ al => al = none ∨ 0 < l
  | _ => False

/-- as in C19: the shifting in `Insert` and `Remove` is right -/
def Smooth (n : Nat) : Op α → Prop
  | .insert _ k _ _ => n ≤ k + 2
  | .remove _ k c _ => n ≤ k + 2 * c ∨ c = 0
  | _ => True

/-- the elements a call is given -/
def Op.src (s : St α) : Op α → List (Slot α)
  | .setArr _ src _ | .addN _ src _ => src.vals s
  | .assign _ j _ => ((view s j).map (·.1)).getD []
  | _ => []

/-! ### effect of a member function -/

/-- a call that ended with code `hr` took elements `c0` and `l0` locks to `c` and `l` -/
def Eff (P : Par α) (s : St α) (op : Op α) (c0 : List (Slot α)) (l0 : Nat) (hr : Hr) (c : List (Slot α)) (l : Nat) : Prop :=
  (hr = .ok → l = lockOp l0 op ∧ (P.T.triv = true ∨ Smooth c0.length op → c = listOp (.val P.T.z) .val (op.src s) c0 op)) ∧
  (hr ≠ .ok → mayFail c0.length l0 op hr ∧ c = c0 ∧ l = l0)

theorem does_eff {P : Par α} {s : St α} {op : Op α} {m o al cs n hr c l} (h : Does m o al cs n hr c l) (hal : op.al = al) (hn : n = lockOp (locks o) op)
    (hc : P.T.triv = true ∨ Smooth (content m o).length op → cs = listOp (.val P.T.z) .val (op.src s) (content m o) op) : Eff P s op (content m o) (locks o) hr c l := by
  rcases h with ⟨h1, h2, h3⟩ | ⟨h1, h2, h3, h4⟩
  · exact ⟨fun _ => ⟨by rw [h3, hn], fun k => by rw [h2, hc k]⟩, fun h => absurd h1 h⟩
  · refine ⟨fun h => by rcases h1 with e | e <;> (rw [e] at h; cases h), fun _ => ⟨?_, h3, h4⟩⟩
    rcases h1 with e | e <;> (rw [e]; simp only [mayFail]; rw [hal]; exact h2)

theorem Done.mono {P : Par α} {s : St α} {i r Q Q' Th Th'} (h : Done P s i r Q Th) (hq : ∀ hr c l, Q hr c l → Q' hr c l) (ht : Th → Th') : Done P s i r Q' Th' := by
  cases r with
  | ub => exact h
  | abort => exact h
  | thr s' => exact ⟨h.1, h.2.1, h.2.2.1, ht h.2.2.2⟩
  | ret hr s' => obtain ⟨a, b, e, c, l, h1, h2⟩ := h; exact ⟨a, b, e, c, l, h1, hq _ _ _ h2⟩

theorem inserted_list {T : Ty α} {c : List (Slot α)} {k : Nat} {x : Slot α} (hk : k ≤ c.length) (h : T.triv = true ∨ c.length ≤ k + 2) : inserted T c k x = c.take k ++ x :: c.drop k := by
  unfold inserted
  by_cases hc : T.triv = true ∨ k = c.length
  · rw [if_pos hc]; simp
  · rw [if_neg hc]
    exact insertMess_ok (by have : ¬ k = c.length := fun e => hc (.inr e); omega) (h.resolve_left fun t => hc (.inl t))

theorem removed_list {T : Ty α} {c : List (Slot α)} {k n : Nat} (hn : 0 < n) (hk : k < c.length) (h : T.triv = true ∨ c.length ≤ k + 2 * n ∨ n = 0) :
    removed T c k (min n (c.length - k)) = c.take k ++ c.drop (k + n) := by
  have e : c.drop (k + min n (c.length - k)) = c.drop (k + n) := by
    rcases Nat.le_total n (c.length - k) with h' | h'
    · rw [Nat.min_eq_left h']
    · rw [Nat.min_eq_right h', List.drop_eq_nil_of_le (by omega), List.drop_eq_nil_of_le (by omega)]
  unfold removed
  by_cases t : T.triv = true
  · rw [if_pos t, e]
  · rw [if_neg t, removeMess_ok (by omega) (by omega) (by rcases h with h | h | h; exact absurd h t; all_goals omega), e]

theorem src_vals {P : Par α} {s : St α} (I : Inv P s) {j p} (hp : get s j = some p) :
    slots s (.of j 0 p.size) = some (content s.mem p) ∧ (∀ v ∈ content s.mem p, v.alive = true) ∧ (content s.mem p).length = p.size := by
  obtain ⟨b, hb⟩ := I.ok j p hp
  have gl := hb.good.le
  dsimp only at gl
  refine ⟨?_, fun v hv => ?_, hb.len⟩
  · simp only [slots, hp, hb.buf, Nat.zero_add, List.drop_zero]
    rw [if_neg (by omega), hb.content]
  · rw [hb.content'] at hv; exact Verif.Arr.content_alive hb.good v hv

theorem member_step {P : Par α} (hz : 0 < P.sz) {s : St α} (I : Inv P s) {op : Op α} (hv : Valid P s op) {i o} (hi : op.self? = some i) (ho : get s i = some o) :
    Done P s i (step P s op) (Eff P s op (content s.mem o) (locks o)) (mayThrow (content s.mem o).length (locks o) op) := by
  obtain ⟨b, hb⟩ := I.ok i o ho
  cases op with
  | new => cases hi
  | copy _ _ => cases hi
  | moveNew _ => cases hi
  | del _ => cases hi
  | moveAssign _ _ => cases hi
  | clear i' =>
    cases hi
    refine (on_ok I ho (clear_ok hb)).mono (fun hr c l ⟨h1, h2, h3⟩ => ⟨fun _ => ⟨h3, fun _ => h2⟩, fun h => absurd h1 h⟩) id
  | setArr i' src al =>
    cases hi
    obtain ⟨_, hf, ha, hs⟩ := hv
    obtain ⟨e, alv, len⟩ := slots_ok I hs
    simp only [step, e]
    exact (on_ok (f := fun m o => setArr P m o (src.vals s) al) I ho (setArr_ok hb hz (by rw [len]; exact hf) (alW ho ha) alv).1).mono (fun hr c l h => does_eff h rfl rfl fun _ => rfl) False.elim
  | assign i' j al =>
    cases hi
    obtain ⟨_, hj, hf, ha⟩ := hv
    obtain ⟨p, hp⟩ := live hj
    simp only [step]
    have hsrc : Op.src s (.assign i j al) = content s.mem p := by simp [Op.src, view, hp]
    by_cases e : i = j
    · subst e
      rw [if_pos rfl]
      rw [ho] at hp; cases hp
      exact ⟨I, fun _ _ => rfl, rfl, content s.mem o, locks o, by simp [view, ho], fun _ => ⟨rfl, fun _ => hsrc.symm⟩, fun h => absurd rfl h⟩
    · rw [if_neg e, hp]; dsimp only
      obtain ⟨e1, alv, len⟩ := src_vals I hp
      rw [e1]; dsimp only
      have D := on_ok (f := fun m o => setArr P m o (content s.mem p) al) I ho (setArr_ok hb hz (by rw [len]; simpa [size, hp] using hf) (alW ho ha) alv).1
      generalize on s i (fun m o => setArr P m o (content s.mem p) al) = r at D
      cases r with
      | ub => exact D
      | abort => exact D
      | thr s' => exact D.2.2.2.elim
      | ret hr s' =>
        obtain ⟨J, h1, hlen, c, l, h2, h3⟩ := D
        have thr : hr ≠ .ok → (Inv P s' ∧ (∀ k, view s' k = view s k) ∧ s'.hs.length = s.hs.length ∧ mayThrow (content s.mem o).length (locks o) (.assign i j al : Op α)) := by
          intro hne
          rcases h3 with ⟨h, _⟩ | ⟨_, h5, h6, h7⟩
          · exact absurd h hne
          · refine ⟨J, fun k => ?_, hlen, h5⟩
            by_cases ek : k = i
            · subst ek; rw [h2, h6, h7]; simp [view, ho]
            · exact h1 k ek
        cases hr with
        | ok => exact ⟨J, h1, hlen, c, l, h2, does_eff h3 rfl rfl fun _ => hsrc.symm⟩
        | oom => exact thr nofun
        | bounds => exact thr nofun
        | inval => exact thr nofun
  | reserve i' n al =>
    cases hi
    exact (on_ok (f := fun m o => reserve P m o n al) I ho (reserve_ok hb hz hv.2.1 (alW ho hv.2.2))).mono (fun hr c l h => does_eff h rfl rfl fun _ => rfl) False.elim
  | resize i' n al =>
    cases hi
    exact (on_ok (f := fun m o => resize P m o n al) I ho (resize_ok hb hz hv.2.1 (alW ho hv.2.2))).mono (fun hr c l h => does_eff h rfl rfl fun _ => rfl) id
  | lockSize i' n al =>
    cases hi
    exact (on_ok (f := fun m o => lockSize P m o n al) I ho (lockSize_ok hb hz hv.2.1 (alW ho hv.2.2))).mono (fun hr c l h => does_eff h rfl rfl fun _ => rfl) id
  | unlock i' =>
    cases hi
    refine (on_ok I ho (unlock_ok hb)).mono (fun hr c l ⟨h1, h2, h3⟩ => ⟨fun _ => ⟨?_, fun _ => h2⟩, fun h => absurd h1 h⟩) id
    simp only [lockOp]; omega
  | write i' k v =>
    cases hi
    exact (on_ok (f := fun m o => write P m o k v) I ho (write_ok hb)).mono (fun hr c l ⟨h1, _, h3, h4⟩ => ⟨fun _ => ⟨h1, fun _ => h4⟩, fun h => absurd h3 h⟩) id
  | setItem i' k v al =>
    cases hi
    refine (on_ok (f := fun m o => setItem P m o k v al) I ho (setItem_ok hb hz (alW ho hv.2))).mono (fun hr c l ⟨h1, h2⟩ => ?_) False.elim
    rcases h2 with ⟨a, e, d⟩ | ⟨_, e, d⟩
    · subst e; exact ⟨nofun, fun _ => ⟨a, d, h1⟩⟩
    · exact ⟨fun _ => ⟨h1, fun _ => d⟩, fun h => absurd e h⟩
  | addN i' src al =>
    cases hi
    obtain ⟨_, hf, ha, hs⟩ := hv
    obtain ⟨e, alv, len⟩ := slots_ok I hs
    simp only [step, e]
    exact (on_ok (f := fun m o => addN P m o (src.vals s) al) I ho (addN_ok hb hz (by rw [len, ← cap_eq ho hb]; exact hf) (alW ho ha) alv)).mono (fun hr c l h => does_eff h rfl rfl fun _ => rfl) False.elim
  | insert i' k v al =>
    cases hi
    refine (on_ok (f := fun m o => insert P m o k v al) I ho (insert_ok hb hz (by rw [← cap_eq ho hb]; exact hv.2.1) (alW ho hv.2.2))).mono (fun hr c l h => ?_) False.elim
    rcases h with ⟨a, e, d, f⟩ | ⟨hk, h⟩
    · subst e; exact ⟨nofun, fun _ => ⟨a, d, f⟩⟩
    · exact does_eff h rfl rfl fun hs => inserted_list hk hs
  | remove i' k n al =>
    cases hi
    refine (on_ok (f := fun m o => remove P m o k n al) I ho (remove_ok hb hz (by rw [← cap_eq ho hb]; exact hv.2.1) (alW ho hv.2.2))).mono (fun hr c l ⟨h1, h2, h3⟩ => ?_) id
    by_cases c1 : n = 0 ∨ (content s.mem o).length ≤ k
    · obtain ⟨a, e, d⟩ := h1 c1
      refine ⟨fun _ => ⟨d, fun _ => ?_⟩, fun h => absurd a h⟩
      rw [e]; simp only [listOp]
      rcases c1 with rfl | c1
      · rw [Nat.add_zero, List.take_append_drop]
      · rw [List.take_of_length_le c1, List.drop_eq_nil_of_le (by omega), List.append_nil]
    by_cases c2 : k = 0 ∧ (content s.mem o).length ≤ n
    · obtain ⟨a, e, d⟩ := h2 c2.1 c2.2
      refine ⟨fun _ => ⟨d, fun _ => ?_⟩, fun h => absurd a h⟩
      rw [e]; simp only [listOp]
      rw [c2.1, List.drop_eq_nil_of_le (by omega)]; rfl
    · exact does_eff (h3 (by omega) (by omega) c2) rfl rfl fun hs => removed_list (by omega) (by omega) hs

/-! ### construction, destruction, moves -/

theorem new_step {P : Par α} {s : St α} (I : Inv P s) : ∃ s', step P s .new = .ret .ok s' ∧ Inv P s' ∧ s'.hs.length = s.hs.length + 1 ∧ (∀ k, k ≠ s.hs.length → view s' k = view s k) ∧ view s' s.hs.length = some ([], 0) := by
  obtain ⟨J, h1, h2⟩ := inv_new I
  refine ⟨_, rfl, J, by simp, fun k hk => ?_, ?_⟩
  · unfold view; rw [h1 k hk]
  · unfold view; rw [h2]; simp [fresh_content, fresh_locks]

theorem del_step {P : Par α} {s : St α} (I : Inv P s) {i} (hv : Valid P s (.del i)) :
    ∃ s', step P s (.del i) = .ret .ok s' ∧ Inv P s' ∧ s'.hs.length = s.hs.length ∧ (∀ k, k ≠ i → view s' k = view s k) ∧ view s' i = none := by
  obtain ⟨o, ho⟩ := live hv.1
  obtain ⟨b, hb⟩ := I.ok i o ho
  obtain ⟨m', e, h1, h2⟩ := (destroy_ok hb).2 (by simpa [lockCount, ho] using hv.2)
  obtain ⟨J, h3, h4⟩ := inv_del I ho h1 h2
  exact ⟨_, by simp only [step, ho, e], J, by simp, h3, h4⟩

theorem copy_step {P : Par α} (hz : 0 < P.sz) {s : St α} (I : Inv P s) {j al c l} (hv : Valid P s (.copy j al)) (hc : view s j = some (c, l)) :
    (∃ s', step P s (.copy j al) = .ret .ok s' ∧ Inv P s' ∧ s'.hs.length = s.hs.length + 1 ∧ (∀ k, k ≠ s.hs.length → view s' k = view s k) ∧ view s' s.hs.length = some (c, 0)) ∨
    (step P s (.copy j al) = .thr s ∧ al = none) := by
  obtain ⟨hj, hf, ha⟩ := hv
  obtain ⟨p, hp⟩ := live hj
  obtain ⟨e1, alv, len⟩ := src_vals I hp
  obtain ⟨J, h1, h2⟩ := inv_new I
  simp only [view, hp, Option.map_some, Option.some.injEq, Prod.mk.injEq] at hc
  simp only [step, hp, e1]
  have ha' : AlOk P s.mem (fresh P) al := by
    intro q hq
    obtain ⟨a, b⟩ := ha q hq
    refine ⟨a, b.imp id fun ⟨_, o, ho, _⟩ => ?_⟩
    exact absurd (get_lt ho) (Nat.lt_irrefl _)
  have D := (setArr_ok (fresh_ok P s.mem) hz (by rw [len]; simpa [size, hp] using hf) ha' alv).1
  generalize setArr P s.mem (fresh P) (content s.mem p) al = r at D
  cases r with
  | ub => exact D.elim
  | thr _ _ => exact D.2.2.2.elim
  | ret hr m o =>
    obtain ⟨fr, D⟩ := D
    rcases D with ⟨rfl, h5, h6⟩ | ⟨h4, h5, _, _⟩
    · dsimp only
      obtain ⟨J', h7, h8⟩ := inv_put (s := { s with hs := s.hs ++ [some (fresh P)] }) J h2 fr
      refine .inl ⟨_, rfl, J', by simp [put], fun k hk => ?_, ?_⟩
      · rw [h7 k hk]; unfold view; rw [h1 k hk]
      · rw [h8, h5, h6, hc.1, fresh_locks]
    · right
      rw [fresh_locks] at h5
      have : al = none := by rcases h5 with h | h; exact h; omega
      rcases h4 with rfl | rfl <;> exact ⟨rfl, this⟩

/-- moving from an array in its large form swaps ownership -/
theorem inv_move {P : Par α} {s : St α} {i j d e m'} (I : Inv P s) (hij : i ≠ j) (hd : get s i = some d) (he : get s j = some e) (h1 : ∀ a, own d ≠ some a → m' a = s.mem a) (h2 : ∀ a, own d = some a → m' a = none) :
    Inv P ⟨m', (s.hs.set i (some e)).set j (some (fresh P))⟩ ∧ (∀ k, k ≠ i → k ≠ j → view ⟨m', (s.hs.set i (some e)).set j (some (fresh P))⟩ k = view s k) ∧
    view ⟨m', (s.hs.set i (some e)).set j (some (fresh P))⟩ i = some (content s.mem e, locks e) ∧ view ⟨m', (s.hs.set i (some e)).set j (some (fresh P))⟩ j = some ([], 0) := by
  have hl := get_lt hd
  have hlj := get_lt he
  have g : ∀ k, get ⟨m', (s.hs.set i (some e)).set j (some (fresh P))⟩ k = if k = j then some (fresh P) else if k = i then some e else get s k := by
    intro k
    rw [get_set (by simpa using hlj)]
    by_cases h : k = j
    · rw [if_pos h, if_pos h]
    · rw [if_neg h, if_neg h]; exact get_set (m := m') hl
  have oth : ∀ k p a, k ≠ i → get s k = some p → own p = some a → m' a = s.mem a :=
    fun k p a hk hp ha => h1 a fun h => hk (I.inj k i p d a hp hd ha h)
  -- where an owner of the new state was before
  have src : ∀ k p a, get ⟨m', (s.hs.set i (some e)).set j (some (fresh P))⟩ k = some p → own p = some a → (k ≠ j ∧ k = i ∧ p = e) ∨ (k ≠ j ∧ k ≠ i ∧ get s k = some p) := by
    intro k p a hp ha
    rw [g] at hp
    split at hp
    · cases hp; rw [fresh_own] at ha; cases ha
    split at hp
    · cases hp; exact .inl ⟨by assumption, by assumption, rfl⟩
    · exact .inr ⟨by assumption, by assumption, hp⟩
  refine ⟨⟨fun k p hp => ?_, fun k k' p q a hp hq ha hb => ?_, fun a ha => ?_⟩, fun k hki hkj => ?_, ?_, ?_⟩
  · rw [g] at hp
    split at hp
    · cases hp; exact ⟨_, fresh_ok P _⟩
    split at hp
    · cases hp
      obtain ⟨b, hb⟩ := I.ok j e he
      exact ⟨b, (hb.keep fun a ha => oth j e a (Ne.symm hij) he ha).1⟩
    · rename_i hk
      obtain ⟨b, hb⟩ := I.ok k p hp
      exact ⟨b, (hb.keep fun a ha => oth k p a hk hp ha).1⟩
  · rcases src k p a hp ha with ⟨x1, x2, x3⟩ | ⟨x1, x2, x3⟩ <;> rcases src k' q a hq hb with ⟨y1, y2, y3⟩ | ⟨y1, y2, y3⟩
    · rw [x2, y2]
    · subst x3; exact absurd (I.inj j k' p q a he y3 ha hb).symm y1
    · subst y3; exact absurd (I.inj k j p q a x3 he ha hb) x1
    · exact I.inj k k' p q a x3 y3 ha hb
  · dsimp only at ha
    by_cases ed : own d = some a
    · rw [h2 a ed] at ha; cases ha
    · rw [h1 a ed] at ha
      obtain ⟨k, p, hp, hpa⟩ := I.all a ha
      have hki : k ≠ i := by
        intro e'; subst e'; rw [hd] at hp; cases hp; exact ed hpa
      by_cases hkj : k = j
      · subst hkj; rw [he] at hp; cases hp
        exact ⟨i, e, by rw [g, if_neg hij, if_pos rfl], hpa⟩
      · exact ⟨k, p, by rw [g, if_neg hkj, if_neg hki]; exact hp, hpa⟩
  · unfold view
    rw [g, if_neg hkj, if_neg hki]
    cases hp : get s k with
    | none => rfl
    | some p =>
      obtain ⟨b, hb⟩ := I.ok k p hp
      rw [Option.map_some, Option.map_some]
      congr 2
      exact (hb.keep fun a ha => oth k p a hki hp ha).2
  · unfold view
    rw [g, if_neg hij, if_pos rfl, Option.map_some]
    obtain ⟨b, hb⟩ := I.ok j e he
    congr 2
    exact (hb.keep fun a ha => oth j e a (Ne.symm hij) he ha).2
  · unfold view
    rw [g, if_pos rfl, Option.map_some, fresh_content, fresh_locks]

/-- is array `j` in its large form? -/
def isLarge (s : St α) (j : Nat) : Bool := ((get s j).map fun o => (own o).isSome).getD false


theorem move_step {P : Par α} (hz : 0 < P.sz) (hfit : Fits P P.smallCap) {s : St α} (I : Inv P s) {i j ci cj} (hij : i ≠ j) (hi : view s i = some (ci, 0)) (hj : view s j = some (cj, 0)) :
    ∃ s', moveTo P s i j = .ret .ok s' ∧ Inv P s' ∧ s'.hs.length = s.hs.length ∧ (∀ k, k ≠ i → k ≠ j → view s' k = view s k) ∧ view s' i = some (cj, 0) ∧
      view s' j = some (if isLarge s j then [] else cj, 0) := by
  obtain ⟨d, hd⟩ : ∃ d, get s i = some d := by
    cases h : get s i with
    | none => simp [view, h] at hi
    | some d => exact ⟨d, rfl⟩
  obtain ⟨e, he⟩ : ∃ e, get s j = some e := by
    cases h : get s j with
    | none => simp [view, h] at hj
    | some d => exact ⟨d, rfl⟩
  simp only [view, hd, he, Option.map_some, Option.some.injEq, Prod.mk.injEq] at hi hj
  obtain ⟨bd, hbd⟩ := I.ok i d hd
  obtain ⟨be, hbe⟩ := I.ok j e he
  simp only [moveTo, hd, he, hbd.lck, hbe.lck, hi.2, hj.2]
  rw [if_neg (by simp)]
  by_cases hs : e.w0 % 2 = 1
  · have hL : isLarge s j = false := by simp [isLarge, he, own, hs]
    rw [if_pos hs]
    obtain ⟨e1, alv, len⟩ := src_vals I he
    rw [e1]; dsimp only
    have hsz : (content s.mem e).length ≤ P.smallCap := by
      rw [len]
      have h1 := hbe.good.le
      have h2 := hbe.cap
      simp only [getCap, hs, if_true, Option.some.injEq] at h2
      dsimp only at h1; omega
    obtain ⟨D, ok⟩ := setArr_ok (al := none) hbd hz (hfit.mono hsz) (by intro q hq; cases hq) alv
    obtain ⟨m', o', e2⟩ := ok (Nat.le_trans hsz hbd.room) hi.2
    rw [e2] at D ⊢
    dsimp only
    obtain ⟨fr, D⟩ := D
    have D : content m' o' = content s.mem e ∧ locks o' = locks d := by
      rcases D with h | h
      · exact h.2
      · rcases h.1 with h | h <;> cases h
    obtain ⟨J, h1, h2⟩ := inv_put I hd fr
    refine ⟨_, rfl, J, by simp [put], fun k hk _ => h1 k hk, ?_, ?_⟩
    · rw [h2, D.1, D.2, hi.2, hj.1]
    · rw [h1 j (Ne.symm hij), hL]; simp [view, he, hj.1, hj.2]
  · rw [if_neg hs]
    have hL : isLarge s j = true := by simp [isLarge, he, own, hs]
    obtain ⟨m', e1, h1, h2⟩ := (destroy_ok hbd).2 hi.2
    rw [e1]; dsimp only
    obtain ⟨J, a, b, c⟩ := inv_move I hij hd he h1 h2
    exact ⟨_, rfl, J, by simp, a, by rw [b, hj.1, hj.2], by rw [c, hL]; rfl⟩

end Verif.Soo
