/-!
# Model of `InterlockedQueue<Entry, N, Single, Single>` (include/YY/Base/Sync/InterlockedQueue.h)

One producer and one consumer thread.  Every read or write of a shared field is one step (sequentially consistent memory; the fields are plain `size_t`/pointers in
the code).  The indices are natural numbers (no wrap-around after 2^64 entries).  Allocation succeeds (`New` failing is a null dereference in the code).
Blocks are numbered in the order of their creation; `base`, `top`, `pushed`, `popped` and `nulls` are ghost.

`g = true` describes callers that start a `Pop` only if more pushes have completed than entries were popped (as `ThreadTaskRunnerImpl` does);
`g = false` describes arbitrary callers.
-/
namespace Verif.Spsc

/-- `Block` (20-36) -/
structure Block where
  r : Nat
  w : Nat
  next : Option Nat
  buf : Nat → Nat
  freed : Bool
  /-- ghost: entries pushed before this block was started -/
  base : Nat

/-- `Push` (69-86): the next action -/
inductive PPC where
  | idle
  | setFirst (e : Nat)
  | check (e : Nat)
  | link (e n : Nat)
  | advance (e n : Nat)
  | write (e : Nat)
  | bump (e : Nat)
deriving DecidableEq

/-- `Pop` (42-67): the next action -/
inductive CPC where
  | idle
  | test
  | take
  | inc (x : Nat)
  | peek
  | move
  | del (b : Nat)
deriving DecidableEq

structure St where
  blocks : Nat → Block
  nb : Nat
  first : Option Nat
  last : Option Nat
  prod : PPC
  cons : CPC
  /-- ghost: newest block linked into the chain -/
  top : Nat
  pushed : List Nat
  popped : List Nat
  nulls : Nat

def fresh (base : Nat) : Block := ⟨0, 0, none, fun _ => 0, false, base⟩

def init : St := ⟨fun _ => fresh 0, 0, none, none, .idle, .idle, 0, [], [], 0⟩

def upd {α : Type} (f : Nat → α) (i : Nat) (v : α) : Nat → α := fun j => if j = i then v else f j

inductive Step (N : Nat) (g : Bool) (s : St) : St → Prop
  /-- `Push`, no block yet (71-73, `pLastWriteBlock = New`) -/
  | startNew (e : Nat) : s.prod = .idle → s.last = none →
      Step N g s { s with blocks := upd s.blocks s.nb (fresh 0), nb := s.nb + 1, last := some s.nb, prod := .setFirst e, top := s.nb }
  /-- `pFirstReadBlock = pLastWriteBlock` (73) -/
  | setFirst (e : Nat) : s.prod = .setFirst e → Step N g s { s with first := s.last, prod := .check e }
  /-- `Push`, block present (71) -/
  | start (e b : Nat) : s.prod = .idle → s.last = some b → Step N g s { s with prod := .check e }
  /-- `IsFull` (77), `New` (79) -/
  | full (e b : Nat) : s.prod = .check e → s.last = some b → (s.blocks b).r + N = (s.blocks b).w →
      Step N g s { s with blocks := upd s.blocks s.nb (fresh ((s.blocks b).base + (s.blocks b).w)), nb := s.nb + 1, prod := .link e s.nb }
  | notFull (e b : Nat) : s.prod = .check e → s.last = some b → (s.blocks b).r + N ≠ (s.blocks b).w → Step N g s { s with prod := .write e }
  /-- `pLastWriteBlock->pNextBlock = _pNextBlock` (80) -/
  | link (e n b : Nat) : s.prod = .link e n → s.last = some b →
      Step N g s { s with blocks := upd s.blocks b { s.blocks b with next := some n }, prod := .advance e n, top := n }
  /-- `pLastWriteBlock = _pNextBlock` (81) -/
  | advance (e n : Nat) : s.prod = .advance e n → Step N g s { s with last := some n, prod := .write e }
  /-- store the entry (84) -/
  | write (e b : Nat) : s.prod = .write e → s.last = some b →
      Step N g s { s with blocks := upd s.blocks b { s.blocks b with buf := upd (s.blocks b).buf ((s.blocks b).w % N) e }, prod := .bump e }
  /-- `uLastWriteIndex += 1` (85) -/
  | bump (e b : Nat) : s.prod = .bump e → s.last = some b →
      Step N g s { s with blocks := upd s.blocks b { s.blocks b with w := (s.blocks b).w + 1 }, prod := .idle, pushed := s.pushed ++ [e] }
  /-- `Pop` without any block (44-45) -/
  | popNone : s.cons = .idle → (g = true → s.popped.length < s.pushed.length) → s.first = none → Step N g s { s with nulls := s.nulls + 1 }
  /-- `Pop` with a block (44) -/
  | popStart (b : Nat) : s.cons = .idle → (g = true → s.popped.length < s.pushed.length) → s.first = some b → Step N g s { s with cons := .test }
  /-- `IsEmpty` (50) -/
  | empty (b : Nat) : s.cons = .test → s.first = some b → (s.blocks b).r = (s.blocks b).w → Step N g s { s with cons := .peek }
  | nonEmpty (b : Nat) : s.cons = .test → s.first = some b → (s.blocks b).r ≠ (s.blocks b).w → Step N g s { s with cons := .take }
  /-- read the entry (52) -/
  | take (b : Nat) : s.cons = .take → s.first = some b → Step N g s { s with cons := .inc ((s.blocks b).buf ((s.blocks b).r % N)) }
  /-- `uLastReadIndex += 1; return` (53-54) -/
  | inc (x b : Nat) : s.cons = .inc x → s.first = some b →
      Step N g s { s with blocks := upd s.blocks b { s.blocks b with r := (s.blocks b).r + 1 }, cons := .idle, popped := s.popped ++ [x] }
  /-- `pNextBlock` null (58-59) -/
  | peekNull (b : Nat) : s.cons = .peek → s.first = some b → (s.blocks b).next = none → Step N g s { s with cons := .idle, nulls := s.nulls + 1 }
  | peekSome (b n : Nat) : s.cons = .peek → s.first = some b → (s.blocks b).next = some n → Step N g s { s with cons := .move }
  /-- `pFirstReadBlock = pFirstReadBlock->pNextBlock` (61-62) -/
  | move (b : Nat) : s.cons = .move → s.first = some b → Step N g s { s with first := (s.blocks b).next, cons := .del b }
  /-- `Delete(_pPendingDelete)` (63) -/
  | del (b : Nat) : s.cons = .del b → Step N g s { s with blocks := upd s.blocks b { s.blocks b with freed := true }, cons := .test }

inductive Reach (N : Nat) (g : Bool) : St → Prop
  | init : Reach N g init
  | step {s s'} : Reach N g s → Step N g s s' → Reach N g s'

/-- the next action of one of the threads touches a deleted block, or a null `pFirstReadBlock` -/
def Unsafe (s : St) : Prop :=
  (∃ e b, (s.prod = .check e ∨ (∃ n, s.prod = .link e n) ∨ s.prod = .write e ∨ s.prod = .bump e) ∧ s.last = some b ∧ (s.blocks b).freed = true) ∨
  (s.cons ≠ .idle ∧ (∀ b, s.cons ≠ .del b) ∧ (s.first = none ∨ ∃ b, s.first = some b ∧ (s.blocks b).freed = true)) ∨
  (∃ b, s.cons = .del b ∧ (s.blocks b).freed = true)

end Verif.Spsc
