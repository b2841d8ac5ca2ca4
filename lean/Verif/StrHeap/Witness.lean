import Verif.StrHeap.Cases

/-! Concrete histories: a computable check of the preconditions (`execB`), the negations of the claims that the
code violates, and histories that meet the hypotheses of the theorems. -/

namespace Verif.StrHeap

def liveB (s : St) (i : Nat) : Bool := match s.hs[i]? with | some (some _) => true | _ => false
def alB (s : St) (al : Al) : Bool := match al with | none => true | some (q, _) => q != 0 && (s.mem q).isNone
def extB : Src → Bool | .ext _ => true | .of _ _ _ => false

/-- a sufficient, computable form of `Valid` -/
def okB (s : St) : Op → Bool
  | .new => true
  | .copy j al => liveB s j && alB s al
  | .move j => liveB s j
  | .del i => liveB s i
  | .clear i => liveB s i
  | .setStr i src al => liveB s i && alB s al && extB src
  | .append i src al => liveB s i && alB s al && extB src
  | .appendChar i _ al => liveB s i && alB s al
  | .setItem i _ _ al => liveB s i && alB s al
  | .setEnc i _ al => liveB s i && alB s al
  | .lock i _ al => liveB s i && alB s al
  | .unlock i => liveB s i
  | .assign i j al => liveB s i && liveB s j && alB s al
  | .remove i _ _ al => liveB s i && alB s al && al.isSome
  | _ => false

theorem live_of_B {s i} (h : liveB s i = true) : Live s i := by
  unfold liveB at h; unfold Live
  split at h
  · rename_i a e; exact ⟨a, e⟩
  · cases h

theorem al_of_B {s al} (h : alB s al = true) : ∀ q x, al = some (q, x) → q ≠ 0 ∧ s.mem q = none := by
  rintro q x rfl
  simp only [alB, Bool.and_eq_true, bne_iff_ne, Option.isNone_iff_eq_none] at h
  exact h

theorem alOk_of_B {s i al} (h : alB s al = true) : AlOk s i al := fun q x e => ⟨(al_of_B h q x e).1, .inl (al_of_B h q x e).2⟩

theorem src_of_B {s i src} (h : extB src = true) : SrcValid s i src := by
  cases src with
  | ext l => trivial
  | of a b c => cases h

theorem valid_of_B {s op} (h : okB s op = true) : Valid s op := by
  cases op <;> simp only [okB, Bool.and_eq_true] at h <;> simp only [Valid] <;>
    first
    | exact live_of_B h
    | exact ⟨live_of_B h.1, alOk_of_B h.2⟩
    | exact ⟨live_of_B h.1, al_of_B h.2⟩
    | exact ⟨live_of_B h.1.1, alOk_of_B h.1.2, src_of_B h.2⟩
    | exact ⟨live_of_B h.1.1, live_of_B h.1.2, alOk_of_B h.2⟩
    | exact ⟨live_of_B h.1.1, alOk_of_B h.1.2, fun _ e => by rw [e] at h; simp at h⟩
    | cases h

def execB (cls : Nat) : St → List Op → Option St
  | s, [] => some s
  | s, op :: ops =>
    if okB s op && decide (s.hs.length < 100) then
      match (step cls s op).st with
      | some s' => execB cls s' ops
      | none => none
    else none

theorem run_of_B {cls ops} : ∀ {s s'}, execB cls s ops = some s' → Run cls s ops s' := by
  induction ops with
  | nil => intro s s' h; simp only [execB, Option.some.injEq] at h; subst h; exact .nil _
  | cons op ops ih =>
    intro s s' h
    simp only [execB] at h
    split at h
    · rename_i hc
      simp only [Bool.and_eq_true, decide_eq_true_eq] at hc
      split at h
      · rename_i s1 e
        exact .cons (valid_of_B hc.1) (by unfold Few imax; omega) e (ih h)
      · cases h
    · cases h

/-- what can be read off a handle -/
structure Seen where
  text : List Nat
  enc : Nat
  cap : Nat
  term : Nat
  iRef : Int
  deriving DecidableEq

def seen (s : St) (i : Nat) : Option Seen := (blk s i).map fun d => ⟨d.text, d.enc, d.cap, d.buf d.size, d.iRef⟩

/-- every history accepted by `execB` whose final state passes a computable test -/
theorem witness {cls ops} (P : St → Bool) (h : (execB cls (init cls) ops).any P = true) :
    ∃ s, Run cls (init cls) ops s ∧ P s = true := by
  cases e : execB cls (init cls) ops with
  | none => rw [e] at h; cases h
  | some s => rw [e] at h; exact ⟨s, run_of_B e, h⟩

def junk : Nat → Nat := fun _ => 7
def at_ (a : Nat) : Al := some (a, junk)

/-- an unshared "abc" and a copy of it that shares its storage -/
def abc2 : List Op := [.new, .setStr 0 (.ext [97, 98, 99]) (at_ 1), .copy 0 none]

/-- the hypotheses of C09–C11 are met: two handles, one block, two owners -/
theorem abc2_run : ∃ s, Run 0 (init 0) abc2 s ∧ seen s 0 = some ⟨[97, 98, 99], 0, 15, 0, 2⟩ ∧
    seen s 1 = some ⟨[97, 98, 99], 0, 15, 0, 2⟩ := by
  obtain ⟨s, r, h⟩ := witness (cls := 0) (ops := abc2)
    (fun s => decide (seen s 0 = some ⟨[97, 98, 99], 0, 15, 0, 2⟩ ∧ seen s 1 = some ⟨[97, 98, 99], 0, 15, 0, 2⟩)) (by decide +kernel)
  exact ⟨s, r, of_decide_eq_true h⟩

/-- appending through the copy leaves the original alone and gives the copy its own block -/
theorem abc2_append : ∃ s, Run 0 (init 0) (abc2 ++ [.appendChar 1 100 (at_ 2)]) s ∧
    seen s 0 = some ⟨[97, 98, 99], 0, 15, 0, 1⟩ ∧ seen s 1 = some ⟨[97, 98, 99, 100], 0, 15, 0, 1⟩ := by
  obtain ⟨s, r, h⟩ := witness (cls := 0) (ops := abc2 ++ [.appendChar 1 100 (at_ 2)])
    (fun s => decide (seen s 0 = some ⟨[97, 98, 99], 0, 15, 0, 1⟩ ∧ seen s 1 = some ⟨[97, 98, 99, 100], 0, 15, 0, 1⟩)) (by decide +kernel)
  exact ⟨s, r, of_decide_eq_true h⟩

/-- **C09 fails for `SetItem` on a shared string**: replacing the first character of an unshared "abc" gives
"xbc"; the same call on a copy that shares its storage returns success and leaves the copy empty
(`CloneStringData` does not set `uSize`; `SetItem` does not restore it). -/
theorem C09_setItem_fails :
    (∃ s, Run 0 (init 0) [.new, .setStr 0 (.ext [97, 98, 99]) (at_ 1), .setItem 0 0 120 none] s ∧
      (seen s 0).map Seen.text = some [120, 98, 99]) ∧
    (∃ s, Run 0 (init 0) (abc2 ++ [.setItem 1 0 120 (at_ 2)]) s ∧ (seen s 1).map Seen.text = some []) := by
  obtain ⟨s, r, h⟩ := witness (cls := 0) (ops := [.new, .setStr 0 (.ext [97, 98, 99]) (at_ 1), .setItem 0 0 120 none])
    (fun s => decide ((seen s 0).map Seen.text = some [120, 98, 99])) (by decide +kernel)
  obtain ⟨s', r', h'⟩ := witness (cls := 0) (ops := abc2 ++ [.setItem 1 0 120 (at_ 2)])
    (fun s => decide ((seen s 1).map Seen.text = some [])) (by decide +kernel)
  exact ⟨⟨s, r, of_decide_eq_true h⟩, ⟨s', r', of_decide_eq_true h'⟩⟩

/-- **C09 fails for `SetANSIEncoding` on a shared string**: the text is lost. -/
theorem C09_setEnc_fails :
    (∃ s, Run 0 (init 0) [.new, .setStr 0 (.ext [97, 98, 99]) (at_ 1), .setEnc 0 936 none] s ∧
      (seen s 0).map Seen.text = some [97, 98, 99]) ∧
    (∃ s, Run 0 (init 0) (abc2 ++ [.setEnc 1 936 (at_ 2)]) s ∧ (seen s 1).map Seen.text = some []) := by
  obtain ⟨s, r, h⟩ := witness (cls := 0) (ops := [.new, .setStr 0 (.ext [97, 98, 99]) (at_ 1), .setEnc 0 936 none])
    (fun s => decide ((seen s 0).map Seen.text = some [97, 98, 99])) (by decide +kernel)
  obtain ⟨s', r', h'⟩ := witness (cls := 0) (ops := abc2 ++ [.setEnc 1 936 (at_ 2)])
    (fun s => decide ((seen s 1).map Seen.text = some [])) (by decide +kernel)
  exact ⟨⟨s, r, of_decide_eq_true h⟩, ⟨s', r', of_decide_eq_true h'⟩⟩

/-- **C09 fails for `LockBuffer`/`UnlockBuffer()` on a shared string**: locking and unlocking without a change
keeps the text of an unshared string and empties a shared one. -/
theorem C09_lock_fails :
    (∃ s, Run 0 (init 0) [.new, .setStr 0 (.ext [97, 98, 99]) (at_ 1), .lock 0 10 none, .unlock 0] s ∧
      (seen s 0).map Seen.text = some [97, 98, 99]) ∧
    (∃ s, Run 0 (init 0) (abc2 ++ [.lock 1 10 (at_ 2), .unlock 1]) s ∧ (seen s 1).map Seen.text = some []) := by
  obtain ⟨s, r, h⟩ := witness (cls := 0) (ops := [.new, .setStr 0 (.ext [97, 98, 99]) (at_ 1), .lock 0 10 none, .unlock 0])
    (fun s => decide ((seen s 0).map Seen.text = some [97, 98, 99])) (by decide +kernel)
  obtain ⟨s', r', h'⟩ := witness (cls := 0) (ops := abc2 ++ [.lock 1 10 (at_ 2), .unlock 1])
    (fun s => decide ((seen s 1).map Seen.text = some [])) (by decide +kernel)
  exact ⟨⟨s, r, of_decide_eq_true h⟩, ⟨s', r', of_decide_eq_true h'⟩⟩

/-- **C09 fails for the code page**: appending to an unshared ANSI string of code page 936 keeps the code page;
appending to a copy that shares its storage resets the code page to the default. -/
theorem C09_encoding_fails :
    (∃ s, Run 0 (init 0) [.new, .setStr 0 (.ext [97]) (at_ 1), .setEnc 0 936 none, .appendChar 0 98 none] s ∧
      seen s 0 = some ⟨[97, 98], 936, 15, 0, 1⟩) ∧
    (∃ s, Run 0 (init 0) [.new, .setStr 0 (.ext [97]) (at_ 1), .setEnc 0 936 none, .copy 0 none, .appendChar 1 98 (at_ 2)] s ∧
      seen s 1 = some ⟨[97, 98], 0, 15, 0, 1⟩) := by
  obtain ⟨s, r, h⟩ := witness (cls := 0) (ops := [.new, .setStr 0 (.ext [97]) (at_ 1), .setEnc 0 936 none, .appendChar 0 98 none])
    (fun s => decide (seen s 0 = some ⟨[97, 98], 936, 15, 0, 1⟩)) (by decide +kernel)
  obtain ⟨s', r', h'⟩ := witness (cls := 0) (ops := [.new, .setStr 0 (.ext [97]) (at_ 1), .setEnc 0 936 none, .copy 0 none, .appendChar 1 98 (at_ 2)])
    (fun s => decide (seen s 1 = some ⟨[97, 98], 0, 15, 0, 1⟩)) (by decide +kernel)
  exact ⟨⟨s, r, of_decide_eq_true h⟩, ⟨s', r', of_decide_eq_true h'⟩⟩

/-- **C11 fails after `SetItem` on a shared string**: the size is 0 and the character after the last one is not
the terminator. -/
theorem C11_setItem_fails : ∃ s d, Run 0 (init 0) (abc2 ++ [.setItem 1 0 120 (at_ 2)]) s ∧ blk s 1 = some d ∧
    ¬ d.isLocked ∧ d.buf d.text.length ≠ 0 := by
  obtain ⟨s, r, h⟩ := witness (cls := 0) (ops := abc2 ++ [.setItem 1 0 120 (at_ 2)])
    (fun s => (blk s 1).any fun d : SD => decide (¬ d.iRef < 0 ∧ d.buf d.size ≠ 0)) (by decide +kernel)
  cases e : blk s 1 with
  | none => rw [e] at h; cases h
  | some d =>
    rw [e] at h
    simp only [Option.any_some, decide_eq_true_eq] at h
    exact ⟨s, d, r, e, h.1, by rw [text_length]; exact h.2⟩

/-- a call that is undefined in some state reached by a valid history -/
theorem witness_ub {cls ops op} (P : St → Bool)
    (h : (execB cls (init cls) ops).any (fun s => P s && (step cls s op).st.isNone) = true) :
    ∃ s, Run cls (init cls) ops s ∧ P s = true ∧ step cls s op = .ub := by
  obtain ⟨s, r, hs⟩ := witness _ h
  simp only [Bool.and_eq_true, Option.isNone_iff_eq_none] at hs
  refine ⟨s, r, hs.1, ?_⟩
  cases e : step cls s op with
  | ub => rfl
  | thr s' => rw [e] at hs; cases hs.2
  | ret hr s' => rw [e] at hs; cases hs.2

/-- **C16 fails for `s += s`** when the storage is unshared and must grow: `realloc` moves the block and the
source pointer dangles. -/
theorem C16_append_fails : ∃ s d, Run 0 (init 0) [.new, .setStr 0 (.ext [1, 2, 3, 4, 5, 6, 7, 8]) (at_ 1)] s ∧ blk s 0 = some d ∧
    d.text = [1, 2, 3, 4, 5, 6, 7, 8] ∧ AlOk s 0 (at_ 2) ∧ step 0 s (.appendS 0 0 (at_ 2)) = .ub := by
  obtain ⟨s, r, h, u⟩ := witness_ub (cls := 0) (ops := [.new, .setStr 0 (.ext [1, 2, 3, 4, 5, 6, 7, 8]) (at_ 1)])
    (op := .appendS 0 0 (at_ 2))
    (fun s => ((blk s 0).any fun d : SD => decide (d.text = [1, 2, 3, 4, 5, 6, 7, 8])) && alB s (at_ 2)) (by decide +kernel)
  simp only [Bool.and_eq_true] at h
  cases e : blk s 0 with
  | none => rw [e] at h; cases h.1
  | some d =>
    rw [e] at h
    simp only [Option.any_some, decide_eq_true_eq] at h
    exact ⟨s, d, r, e, h.1, alOk_of_B h.2, u⟩

/-- **C16 fails for `s = s.GetConstString()`** on an unshared string: the range is copied onto itself after its
first character was overwritten by `Clear`. -/
theorem C16_assign_fails : ∃ s d, Run 0 (init 0) [.new, .setStr 0 (.ext [97, 98, 99]) (at_ 1)] s ∧ blk s 0 = some d ∧
    d.text = [97, 98, 99] ∧ step 0 s (.setStr 0 (.of 0 0 3) none) = .ub := by
  obtain ⟨s, r, h, u⟩ := witness_ub (cls := 0) (ops := [.new, .setStr 0 (.ext [97, 98, 99]) (at_ 1)])
    (op := .setStr 0 (.of 0 0 3) none)
    (fun s => ((blk s 0).any fun d : SD => decide (d.text = [97, 98, 99]))) (by decide +kernel)
  cases e : blk s 0 with
  | none => rw [e] at h; cases h
  | some d =>
    rw [e] at h
    simp only [Option.any_some, decide_eq_true_eq] at h
    exact ⟨s, d, r, e, h, u⟩

/-- `Remove` on a shared string is undefined when memory runs out: the result of `LockBuffer` is not checked. -/
theorem C10_remove_oom_fails : ∃ s, Run 0 (init 0) abc2 s ∧ step 0 s (.remove 1 0 1 none) = .ub := by
  obtain ⟨s, r, _, u⟩ := witness_ub (cls := 0) (ops := abc2) (op := .remove 1 0 1 none) (fun _ => true) (by decide +kernel)
  exact ⟨s, r, u⟩

/-- the case of `C16_double_partial`: "abc" fits twice into its capacity of 15 -/
theorem C16_double_case : ∃ s d, Run 0 (init 0) [.new, .setStr 0 (.ext [97, 98, 99]) (at_ 1)] s ∧ Few s ∧ blk s 0 = some d ∧
    d.text.length + d.text.length ≤ d.cap ∧ d.text ≠ [] := by
  obtain ⟨s, r, h⟩ := witness (cls := 0) (ops := [.new, .setStr 0 (.ext [97, 98, 99]) (at_ 1)])
    (fun s => decide (s.hs.length < 100) && (blk s 0).any fun d : SD => decide (d.size + d.size ≤ d.cap ∧ d.text ≠ [])) (by decide +kernel)
  simp only [Bool.and_eq_true, decide_eq_true_eq] at h
  cases e : blk s 0 with
  | none => rw [e] at h; cases h.2
  | some d =>
    rw [e] at h
    simp only [Option.any_some, decide_eq_true_eq] at h
    exact ⟨s, d, r, by unfold Few imax; omega, e, by rw [text_length]; exact h.2.1, h.2.2⟩

/-- the case of `C08_move_fails`: a source "abc", an empty destination, and a conversion that returns success -/
theorem C08_move_case : ∃ s s' d e, Run 2 (init 2) [.new, .setStr 0 (.ext [97, 98, 99]) (at_ 1), .new] s ∧ Few s ∧
    blk s 0 = some d ∧ d.text ≠ [] ∧ blk s 1 = some e ∧ e.text = [] ∧ AlOk s 0 none ∧
    transformMove 2 3 (fun c => c * 256) s 0 1 none = .ret .ok s' := by
  obtain ⟨s, r, h⟩ := witness (cls := 2) (ops := [.new, .setStr 0 (.ext [97, 98, 99]) (at_ 1), .new])
    (fun s => decide (s.hs.length < 100) && ((blk s 0).any fun d : SD => decide (d.text ≠ [])) && ((blk s 1).any fun d : SD => decide (d.text = [])) &&
      (match transformMove 2 3 (fun c => c * 256) s 0 1 none with | .ret .ok _ => true | _ => false)) (by decide +kernel)
  simp only [Bool.and_eq_true, decide_eq_true_eq] at h
  cases e : blk s 0 with
  | none => rw [e] at h; cases h.1.1.2
  | some d =>
    cases e' : blk s 1 with
    | none => rw [e'] at h; cases h.1.2
    | some d' =>
      rw [e, e'] at h
      simp only [Option.any_some, decide_eq_true_eq] at h
      cases e'' : transformMove 2 3 (fun c => c * 256) s 0 1 none with
      | ub => rw [e''] at h; cases h.2
      | thr s' => rw [e''] at h; cases h.2
      | ret hr s' =>
        rw [e''] at h
        cases hr <;> first | exact ⟨s, s', d, d', r, by unfold Few imax; omega, e, h.1.1.2, e', h.1.2, alOk_of_B rfl, e''⟩ | (cases h.2)

#print axioms C10_lifetime_partial
#print axioms C09_others_run
#print axioms C09_as_unshared_partial
#print axioms C11_terminated_partial
#print axioms C16_append_partial
#print axioms C16_assign_partial
#print axioms C08_move_fails
#print axioms C08_append_partial
#print axioms C09_setItem_fails

end Verif.StrHeap
