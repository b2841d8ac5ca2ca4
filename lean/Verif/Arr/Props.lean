import Verif.Arr.World

/-!
Properties of `Array` with the copy-on-write allocation policy:
C18 (list semantics for trivially copyable elements), C19 (elements with their own move semantics), C20 (copy on write, lifetime, locking).
-/

namespace Verif.Arr

variable {α : Type}

/-- the state a call leaves behind, whether it returned or threw -/
def Out.st : Out α → Option (St α)
  | .ub => none
  | .abort => none
  | .thr s => some s
  | .ret _ s => some s

theorem same_refl (s : St α) (ts : List Nat) : Same s s ts := fun _ _ _ => ⟨rfl, rfl⟩

theorem same_push {m m' : Mem α} {hs : List (Option Nat)} {x : Nat} {ts : List Nat} (h : ∀ a, 0 < cnt hs a → obs m' a = obs m a) : Same ⟨m, hs⟩ ⟨m', hs ++ [some x]⟩ ts :=
  same_mem (fun _ _ hk => List.getElem?_append_left hk) (fun _ a _ h1 => h a (cnt_pos h1))

/-- the allocator's answer for an object under construction -/
theorem fresh_new {T : Ty α} {m : Mem α} {p : Nat} {al : Al} (h : ∀ q, al = some q → q ≠ 0 ∧ m q = none) : Fresh T m p al :=
  fun q e => ⟨(h q e).1, .inl (h q e).2⟩

/-- a failed copy into an Array under construction leaves the memory as it was -/
theorem setArr_static_oom {T : Ty α} {m : Mem α} {src : Ptr α} {m' p'} (hz : m 0 = some emptyBlk) (h : setArr T m 0 src none = .ret .oom m' p') : m' = m := by
  unfold setArr at h
  rw [hz] at h; dsimp only at h
  rw [if_pos emptyBlk_shared] at h
  cases ha : alloc m src.len none with
  | none => rw [ha] at h; cases h; rfl
  | some x =>
    obtain ⟨m1, q⟩ := x
    rw [ha] at h; dsimp only at h
    have : m1 = m ∧ q = 0 := by
      unfold alloc at ha
      split at ha
      · cases ha; exact ⟨rfl, rfl⟩
      · cases ha
    obtain ⟨rfl, rfl⟩ := this
    have r : release T m1 0 = some m1 := by
      unfold release; rw [hz]; dsimp only; rw [if_pos (by simp [Blk.isReadOnly, emptyBlk])]
    rw [r] at h; dsimp only at h
    have l : lockAt m1 0 = .ret .ok m1 0 := by
      unfold lockAt; rw [hz]; dsimp only
      have : lockBlk (emptyBlk : Blk α) = some emptyBlk := by unfold lockBlk; rw [if_pos (by simp [Blk.isReadOnly, emptyBlk])]
      rw [this]; rfl
    rw [l] at h; dsimp only at h
    unfold finish at h
    rw [hz] at h; dsimp only at h
    split at h
    · cases h
    · rw [if_pos rfl] at h
      split at h <;> cases h

theorem assign_static_oom {T : Ty α} {m : Mem α} {a : Nat} {al : Al} {m' p'} (hz : m 0 = some emptyBlk) (hal : al = none) (h : assign T m 0 a al = .ret .oom m' p') : m' = m := by
  subst hal
  unfold assign at h
  split at h
  · cases h
  · split at h
    · cases h
    · split at h
      · exact setArr_static_oom hz h
      · split at h
        · cases h
        · cases h
        · split at h
          · cases h
          · split at h
            · cases h
            · split at h <;> cases h

/-- what `copy` does to the program -/
theorem copy_step {T : Ty α} {s : St α} {j al e} (inv : Inv T s) (few : Few s) (hv : Valid T s (.copy j al)) (he : blk s j = some e) :
    (∃ s' d', step T s (.copy j al) = .ret .ok s' ∧ Inv T s' ∧ Same s s' [] ∧ s'.hs.length = s.hs.length + 1 ∧ blk s' s.hs.length = some d' ∧ d'.content = e.content ∧ d'.locks = 0) ∨
    (step T s (.copy j al) = .thr s ∧ al = none) := by
  obtain ⟨⟨a, hj⟩, hal⟩ := hv
  rw [blk_eq hj] at he
  have w0 : WF T s.mem (plus (cnt s.hs) 0) := wf_plus0 inv
  have nl : ¬ (emptyBlk : Blk α).isLocked := by simp [Blk.isLocked, emptyBlk, imax]
  have A := assign_ok w0 (few_bd2 few 0 a) inv.zero (fresh_new hal) (.inl (cnt_pos hj)) he (fun h => absurd h nl)
  simp only [step, hj]
  unfold Post at A
  split at A
  · exact A.elim
  · obtain ⟨_, _, _, h⟩ := A; exact absurd h.1 nl
  · rename_i hr m p heq
    obtain ⟨L, d', g, h⟩ := A
    rw [heq]
    rcases h with ⟨rfl, hc, hl⟩ | ⟨rfl, ha, _⟩
    · refine .inl ⟨_, d', rfl, ?_, same_push fun x hx => L.frame x hx, by simp, ?_, hc, ?_⟩
      · unfold Inv; dsimp only; rw [cnt_push]; exact L.wf
      · unfold blk; dsimp only; rw [List.getElem?_append_right (Nat.le_refl _), Nat.sub_self]; exact g
      · rw [hl]; simp [Blk.locks, emptyBlk, imax]
    · have := assign_static_oom inv.zero ha heq
      rw [this]
      exact .inr ⟨rfl, ha⟩

/-- Safety of one step: a valid operation is never undefined, keeps the ownership invariant and leaves every handle it is not called on untouched. -/
theorem step_safe {T : Ty α} {s : St α} {op : Op α} (inv : Inv T s) (few : Few s) (hv : Valid T s op) :
    ∃ s', (step T s op).st = some s' ∧ Inv T s' ∧ Same s s' op.targets := by
  have member : ∀ i, op.self? = some i → op.targets = [i] → Live s i →
      ∃ s', (step T s op).st = some s' ∧ Inv T s' ∧ Same s s' op.targets := by
    intro i hi ht hl
    obtain ⟨p, d, hp, hm, hb, w⟩ := handle_facts inv hl
    have := member_step inv few hv hi hb
    unfold WPost at this
    rw [ht]
    split at this
    · exact this.elim
    · exact this.elim
    · rename_i s' he; exact ⟨s', by rw [he]; rfl, this.1, this.2.1⟩
    · rename_i hr s' he; exact ⟨s', by rw [he]; rfl, this.1, this.2.1⟩
  cases op with
  | new =>
    refine ⟨_, rfl, ?_, same_push fun _ _ => rfl⟩
    unfold Inv; dsimp only; rw [cnt_push]; exact wf_plus0 inv
  | copy j al =>
    obtain ⟨p, e, hp, hm, hb, w⟩ := handle_facts inv hv.1
    rcases copy_step inv few hv hb with ⟨s', d', e1, i1, sm, _⟩ | ⟨e1, _⟩
    · exact ⟨s', by rw [e1]; rfl, i1, sm⟩
    · exact ⟨s, by rw [e1]; rfl, inv, same_refl _ _⟩
  | moveNew j =>
    obtain ⟨⟨a, hj⟩, hn⟩ := hv
    obtain ⟨e, he⟩ := inv.live (cnt_pos hj)
    simp only [step, hj, he]
    rw [if_neg (fun h => hn ⟨e, by rw [blk_eq hj, he], h⟩)]
    refine ⟨_, rfl, ?_, same_mem ?_ ?_⟩
    · unfold Inv; dsimp only; rw [cnt_push, cnt_put 0 hj, plus_comm, ← cnt_split hj]; exact wf_plus0 inv
    · intro k hk hl
      rw [List.getElem?_append_left (by simpa using hl), List.getElem?_set_ne]
      simp [Op.targets] at hk; exact Ne.symm hk
    · intro k x _ _; rfl
  | del i =>
    obtain ⟨p, d, hp, hm, hb, w⟩ := handle_facts inv hv
    obtain ⟨m', e, w', fr, _⟩ := release_ok w (few_bd0 few i)
    simp only [step, hp, e]
    refine ⟨_, rfl, w', same_mem ?_ ?_⟩
    · intro k hk hl
      rw [List.getElem?_set_ne]; simp [Op.targets] at hk; exact Ne.symm hk
    · intro k x hk hx
      exact fr x (oth_pos (by simpa [Op.targets] using hk) hx)
  | moveAssign i j =>
    obtain ⟨⟨p, hp⟩, ⟨a, hj⟩, hn1, hn2⟩ := hv
    simp only [step, hp, hj]
    by_cases hpa : p = a
    · rw [if_pos hpa]; exact ⟨s, rfl, inv, same_refl _ _⟩
    · rw [if_neg hpa]
      obtain ⟨e, he⟩ := inv.live (cnt_pos hj)
      obtain ⟨p', d, hp', hm, hb, w⟩ := handle_facts inv ⟨p, hp⟩
      rw [hp] at hp'; cases hp'
      rw [he, hm]; dsimp only
      rw [if_neg (fun h => h.elim (fun h => hn2 ⟨e, by rw [blk_eq hj, he], h⟩) (fun h => hn1 ⟨d, hb, h⟩))]
      have hij : i ≠ j := by intro e; subst e; rw [hp] at hj; cases hj; exact hpa rfl
      have hp2 : (s.hs.set j (some 0))[i]? = some (some p) := by rw [List.getElem?_set_ne (Ne.symm hij)]; exact hp
      obtain ⟨m', e', w', fr, _⟩ := release_ok w (few_bd0 few i)
      rw [e']
      refine ⟨_, rfl, ?_, same_mem ?_ ?_⟩
      · unfold Inv; dsimp only
        rw [cnt_put a hp2, List.set_comm _ _ (Ne.symm hij)]
        have hj2 : (s.hs.set i none)[j]? = some (some a) := by rw [List.getElem?_set_ne hij]; exact hj
        rw [cnt_put 0 hj2, plus_comm, ← cnt_split hj2]
        exact wf_plus0 w'
      · intro k hk hl
        simp [Op.targets] at hk
        rw [List.getElem?_set_ne (Ne.symm hk.1), List.getElem?_set_ne (Ne.symm hk.2)]
      · intro k x hk hx
        simp [Op.targets] at hk
        exact fr x (oth_pos hk.1 hx)
  | clear i => exact member i rfl rfl hv
  | setArr i _ _ => exact member i rfl rfl hv.1
  | assign i _ _ => exact member i rfl rfl hv.1
  | reserve i _ _ => exact member i rfl rfl hv.1
  | resize i _ _ => exact member i rfl rfl hv.1
  | lock i _ _ => exact member i rfl rfl hv.1
  | unlock i => exact member i rfl rfl hv
  | write i _ _ =>
    refine member i rfl rfl ?_
    obtain ⟨d, hd, _⟩ := hv
    obtain ⟨a, ha, _⟩ := live_of_blk hd
    exact ⟨a, ha⟩
  | setItem i _ _ _ => exact member i rfl rfl hv.1
  | add i _ _ => exact member i rfl rfl hv.1
  | addN i _ _ => exact member i rfl rfl hv.1
  | insert i _ _ _ => exact member i rfl rfl hv.1
  | remove i _ _ _ => exact member i rfl rfl hv.1

/-! ### histories -/

/-- no Array object exists; the static empty block (`ArrayStaticData`) is at address 0 -/
def init : St α := ⟨fun a => if a = 0 then some emptyBlk else none, []⟩

/-- `Run T s ops s'`: a history of valid operations from `s` to `s'`; operations that throw or return an error code are part of it -/
inductive Run (T : Ty α) : St α → List (Op α) → St α → Prop
  | nil (s) : Run T s [] s
  | cons {s s' s'' op ops} : Valid T s op → Few s → (step T s op).st = some s' → Run T s' ops s'' → Run T s (op :: ops) s''

theorem inv_init (T : Ty α) : Inv T init := by
  refine ⟨rfl, ?_, ?_⟩
  · intro a d ha hm; simp [init, ha] at hm
  · intro a ha _; simp [init, cnt]

theorem run_inv {T : Ty α} {s ops s'} (r : Run T s ops s') (inv : Inv T s) : Inv T s' := by
  induction r with
  | nil => exact inv
  | cons hv hf hs _ ih =>
    obtain ⟨x, e, i, _⟩ := step_safe inv hf hv
    rw [hs] at e; cases e
    exact ih i

theorem Run.append {T : Ty α} {s ops s'} (r : Run T s ops s') : ∀ {ops' s''}, Run T s' ops' s'' → Run T s (ops ++ ops') s'' := by
  induction r with
  | nil => intro _ _ h; exact h
  | cons hv hf hs _ ih => intro _ _ h; exact .cons hv hf hs (ih h)

end Verif.Arr
