import Verif.CriticalSection.Model
/-!
# Model of `CancellationTokenSource` (include/YY/Base/Threading/CancellationToken.h 128-200)

Any number of threads, every interleaving of their accesses; callbacks may themselves call `Register`, `Unregister` and `Cancel` of the token.  The lock is the
`CriticalSection` as it is written (`Verif.CriticalSection`), thread `i` has the id `i + 1`.

Simplifications: null arguments (which are refused before anything else) are left out; `oCallbacks` is the list of its handlers (`Verif.Delegate`, C57), a handler belongs to
one token only; registering the only handler of the list a second time is undefined (it is linked to itself, C57) and leads to the outcome `ub`.
-/
namespace Verif.Cancel
open Verif.CriticalSection (State lock unlock)

/-- a call that is not finished; `late` remembers whether cancellation had been requested when `Register` was called -/
inductive Frame where
  /-- `Register`: next `Lock` (155) -/
  | reg (h : Nat) (late : Bool)
  /-- lock held, next reads `bCancel` (156) -/
  | regIn (h : Nat) (late : Bool)
  /-- next `AddHandler` (161) -/
  | regAdd (h : Nat) (late : Bool)
  /-- next `Unlock` and return `r` -/
  | regOut (h : Nat) (late r : Bool)
  /-- `Unregister`: next `Lock` (171) -/
  | unreg (h : Nat)
  /-- next `RemoveHandler` (172) -/
  | unregIn (h : Nat)
  | unregOut (h : Nat) (r : Bool)
  /-- `Cancel`: next `Exchange` (177) -/
  | cancel
  /-- next `Lock` (185) -/
  | cLock
  /-- next moves the callbacks out (186) -/
  | cSwap
  /-- in `Invoke`, with the remaining handlers (188-192) -/
  | cLoop (p : List Nat)
  /-- `OnCanceled` of a handler is running -/
  | cb (h : Nat)
deriving DecidableEq

/-- what happened to the handler list -/
inductive Ev where
  | reg (h : Nat)
  | unreg (h : Nat)
deriving DecidableEq

/-- what a call returned -/
inductive Ret where
  | reg (h : Nat) (late r : Bool)
  | unreg (h : Nat) (r : Bool)
  | cancel (r : Bool)
deriving DecidableEq

structure St where
  /-- `bCancel` (138) -/
  cancelled : Bool := false
  /-- `oCallbacksLock` (139) -/
  cs : State := {}
  /-- `oCallbacks` (140) -/
  list : List Nat := []
  /-- the calls in progress of each thread, innermost first -/
  stacks : List (List Frame)
  -- observations
  log : List Ev := []
  invoked : List Nat := []
  rets : List Ret := []
  /-- the callbacks were moved out -/
  swapped : Bool := false
  ub : Bool := false

/-- a thread may call: it does nothing or runs a callback -/
def Free : List Frame → Prop
  | [] => True
  | .cb _ :: _ => True
  | _ => False

inductive Step : St → St → Prop
  | callReg (s : St) (i h : Nat) (k : List Frame) (hk : s.stacks[i]? = some k) (hf : Free k) :
      Step s { s with stacks := s.stacks.set i (.reg h s.cancelled :: k) }
  | callUnreg (s : St) (i h : Nat) (k : List Frame) (hk : s.stacks[i]? = some k) (hf : Free k) :
      Step s { s with stacks := s.stacks.set i (.unreg h :: k) }
  | callCancel (s : St) (i : Nat) (k : List Frame) (hk : s.stacks[i]? = some k) (hf : Free k) :
      Step s { s with stacks := s.stacks.set i (.cancel :: k) }
  /-- 155 -/
  | regLock (s : St) (i h : Nat) (late : Bool) (k : List Frame) (cs : State) (hk : s.stacks[i]? = some (.reg h late :: k)) (hl : lock s.cs (i + 1) = some cs) :
      Step s { s with cs := cs, stacks := s.stacks.set i (.regIn h late :: k) }
  /-- 156-159 -/
  | regCheck (s : St) (i h : Nat) (late : Bool) (k : List Frame) (hk : s.stacks[i]? = some (.regIn h late :: k)) :
      Step s { s with stacks := s.stacks.set i ((if s.cancelled then .regOut h late false else .regAdd h late) :: k) }
  /-- 161: already linked to another handler -/
  | regDup (s : St) (i h : Nat) (late : Bool) (k : List Frame) (hk : s.stacks[i]? = some (.regAdd h late :: k)) (hm : h ∈ s.list) (h1 : s.list ≠ [h]) :
      Step s { s with stacks := s.stacks.set i (.regOut h late false :: k) }
  /-- 161: the only handler is linked to itself; anything may become of the list -/
  | regUb (s : St) (i h : Nat) (late : Bool) (k : List Frame) (l : List Nat) (hk : s.stacks[i]? = some (.regAdd h late :: k)) (h1 : s.list = [h]) :
      Step s { s with ub := true, list := l, stacks := s.stacks.set i (.regOut h late true :: k) }
  /-- 161 -/
  | regAdd (s : St) (i h : Nat) (late : Bool) (k : List Frame) (hk : s.stacks[i]? = some (.regAdd h late :: k)) (hm : h ∉ s.list) :
      Step s { s with list := s.list ++ [h], log := s.log ++ [.reg h], stacks := s.stacks.set i (.regOut h late true :: k) }
  /-- the destructor of the `AutoLock` -/
  | regRet (s : St) (i h : Nat) (late r : Bool) (k : List Frame) (hk : s.stacks[i]? = some (.regOut h late r :: k)) :
      Step s { s with cs := unlock s.cs, rets := .reg h late r :: s.rets, stacks := s.stacks.set i k }
  /-- 171 -/
  | unregLock (s : St) (i h : Nat) (k : List Frame) (cs : State) (hk : s.stacks[i]? = some (.unreg h :: k)) (hl : lock s.cs (i + 1) = some cs) :
      Step s { s with cs := cs, stacks := s.stacks.set i (.unregIn h :: k) }
  /-- 172 -/
  | unregTake (s : St) (i h : Nat) (k : List Frame) (hk : s.stacks[i]? = some (.unregIn h :: k)) (hm : h ∈ s.list) :
      Step s { s with list := s.list.erase h, log := s.log ++ [.unreg h], stacks := s.stacks.set i (.unregOut h true :: k) }
  | unregMiss (s : St) (i h : Nat) (k : List Frame) (hk : s.stacks[i]? = some (.unregIn h :: k)) (hm : h ∉ s.list) :
      Step s { s with stacks := s.stacks.set i (.unregOut h false :: k) }
  | unregRet (s : St) (i h : Nat) (r : Bool) (k : List Frame) (hk : s.stacks[i]? = some (.unregOut h r :: k)) :
      Step s { s with cs := unlock s.cs, rets := .unreg h r :: s.rets, stacks := s.stacks.set i k }
  /-- 177-180 -/
  | cancelNo (s : St) (i : Nat) (k : List Frame) (hk : s.stacks[i]? = some (.cancel :: k)) (hc : s.cancelled = true) :
      Step s { s with rets := .cancel false :: s.rets, stacks := s.stacks.set i k }
  | cancelYes (s : St) (i : Nat) (k : List Frame) (hk : s.stacks[i]? = some (.cancel :: k)) (hc : s.cancelled = false) :
      Step s { s with cancelled := true, stacks := s.stacks.set i (.cLock :: k) }
  /-- 185 -/
  | cLock (s : St) (i : Nat) (k : List Frame) (cs : State) (hk : s.stacks[i]? = some (.cLock :: k)) (hl : lock s.cs (i + 1) = some cs) :
      Step s { s with cs := cs, stacks := s.stacks.set i (.cSwap :: k) }
  /-- 186 -/
  | cSwap (s : St) (i : Nat) (k : List Frame) (hk : s.stacks[i]? = some (.cSwap :: k)) :
      Step s { s with list := [], swapped := true, stacks := s.stacks.set i (.cLoop s.list :: k) }
  /-- Delegate.h 104-111 -/
  | cPop (s : St) (i h : Nat) (p : List Nat) (k : List Frame) (hk : s.stacks[i]? = some (.cLoop (h :: p) :: k)) :
      Step s { s with invoked := s.invoked ++ [h], stacks := s.stacks.set i (.cb h :: .cLoop p :: k) }
  /-- `OnCanceled` returns -/
  | cbRet (s : St) (i h : Nat) (k : List Frame) (hk : s.stacks[i]? = some (.cb h :: k)) :
      Step s { s with stacks := s.stacks.set i k }
  /-- 193-194 -/
  | cEnd (s : St) (i : Nat) (k : List Frame) (hk : s.stacks[i]? = some (.cLoop [] :: k)) :
      Step s { s with cs := unlock s.cs, rets := .cancel true :: s.rets, stacks := s.stacks.set i k }

/-- `n` threads, a new token -/
def Init (s : St) : Prop := ∃ n, s = { stacks := List.replicate n [] }

/-- what can happen from `s` on -/
inductive Steps (s : St) : St → Prop
  | refl : Steps s s
  | step (t t' : St) (h : Steps s t) (hs : Step t t') : Steps s t'

inductive Reach : St → Prop
  | init (s : St) (h : Init s) : Reach s
  | step (s s' : St) (h : Reach s) (hs : Step s s') : Reach s'

end Verif.Cancel
