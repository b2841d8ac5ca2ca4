import Verif.Common.Sum

/-!
# Model of lazily created shared instances

`TimeZone::GetCurrentTimeZone` (src/YY/Base/Time/TimeZone.cpp 11-50): a static pointer is set once by compare-exchange; the winner registers an exit handler which takes the pointer back and releases it.
`Token::GetSystemToken`, `GetLimitedToken`, `GetImpersonationSystemToken` (src/YY/Base/Security/Token.cpp 15-177): a static handle is set once by compare-exchange; a thread that loses closes its own handle.

Simplifications: sequential consistency (the first read of the static is a plain read in the code); memory for the instance is always there (`new` throws otherwise, before anything changed); of the several handles a
thread of `Token.cpp` opens only the one that is to be published is modelled, the others are closed by their wrappers (C70); the static `Token` objects are never destroyed.
-/
namespace Verif.Cache
open Verif.Common

/-! ### `TimeZone::GetCurrentTimeZone` -/

/-- where a thread is -/
inductive Pc where
  /-- outside -/
  | idle
  /-- the static was null; instance `i` was created with one reference (23) -/
  | made (i : Nat)
  /-- lost against `j`, about to release the own instance `i` (33) -/
  | lost (i j : Nat)
  /-- about to give a reference to `i` to the result (49) -/
  | got (i : Nat)
  /-- the caller has a reference to `i` -/
  | holds (i : Nat)
deriving DecidableEq

/-- the exit handler (38-45) -/
inductive Ex where
  | no
  /-- took instance `i` out of the static, about to release it (43) -/
  | rel (i : Nat)
deriving DecidableEq

structure St where
  /-- `s_pCachedCurrentTimeZone` -/
  cache : Option Nat
  /-- `uRef` of every instance ever created; 0: destroyed -/
  refs : List Nat
  ts : List Pc
  /-- registered exit handlers that have not run -/
  reg : Nat
  ex : Ex
  /-- number of exit handlers that have run -/
  exits : Nat
  /-- a destroyed instance was used -/
  bad : Bool
deriving DecidableEq

def init (n : Nat) : St := ⟨none, [], List.replicate n .idle, 0, .no, 0, false⟩

/-- `AddRef`, `Release` -/
def addRef (r : List Nat) (i : Nat) : List Nat := r.set i (r[i]?.getD 0 + 1)
def release (r : List Nat) (i : Nat) : List Nat := r.set i (r[i]?.getD 0 - 1)
/-- use of instance `i` is undefined -/
def dead (r : List Nat) (i : Nat) : Bool := r[i]?.getD 0 == 0

/-- a thread has read pointer `i` from the static and has no reference yet -/
def Pc.between : Pc → Bool
  | .lost _ _ | .got _ => true
  | _ => false

/-- `late`: the exit handler may run while another thread is inside the function -/
inductive Step (late : Bool) : St → St → Prop where
  /-- 15, 18-21: the static is set -/
  | hit (s) (t i : Nat) : s.ts[t]? = some .idle → s.cache = some i → Step late s { s with ts := s.ts.set t (.got i) }
  /-- 15, 23: the static is null -/
  | miss (s) (t : Nat) : s.ts[t]? = some .idle → s.cache = none → Step late s { s with refs := s.refs ++ [1], ts := s.ts.set t (.made s.refs.length) }
  /-- 24-28: the system call failed, null is returned -/
  | fail (s) (t i : Nat) : s.ts[t]? = some (.made i) → Step late s { s with refs := release s.refs i, bad := s.bad || dead s.refs i, ts := s.ts.set t .idle }
  /-- 30, 38: this thread sets the static -/
  | win (s) (t i : Nat) : s.ts[t]? = some (.made i) → s.cache = none → Step late s { s with cache := some i, reg := s.reg + 1, ts := s.ts.set t (.got i) }
  /-- 30-31: another thread did -/
  | lose (s) (t i j : Nat) : s.ts[t]? = some (.made i) → s.cache = some j → Step late s { s with ts := s.ts.set t (.lost i j) }
  /-- 33-34 -/
  | drop (s) (t i j : Nat) : s.ts[t]? = some (.lost i j) → Step late s { s with refs := release s.refs i, bad := s.bad || dead s.refs i, ts := s.ts.set t (.got j) }
  /-- 49 -/
  | ret (s) (t i : Nat) : s.ts[t]? = some (.got i) → Step late s { s with refs := addRef s.refs i, bad := s.bad || dead s.refs i, ts := s.ts.set t (.holds i) }
  /-- the caller is done with the result -/
  | done (s) (t i : Nat) : s.ts[t]? = some (.holds i) → Step late s { s with refs := release s.refs i, bad := s.bad || dead s.refs i, ts := s.ts.set t .idle }
  /-- 40: an exit handler, with something to release -/
  | exit (s) (i : Nat) : 0 < s.reg → s.ex = .no → s.cache = some i → (late = false → ∀ p ∈ s.ts, p.between = false) →
      Step late s { s with cache := none, reg := s.reg - 1, exits := s.exits + 1, ex := .rel i }
  /-- 40-41: an exit handler, with nothing to release -/
  | exit0 (s) : 0 < s.reg → s.ex = .no → s.cache = none → Step late s { s with reg := s.reg - 1, exits := s.exits + 1 }
  /-- 43 -/
  | exitRel (s) (i : Nat) : s.ex = .rel i → Step late s { s with refs := release s.refs i, bad := s.bad || dead s.refs i, ex := .no }

inductive Reach (late : Bool) (n : Nat) : St → Prop where
  | init : Reach late n (init n)
  | step {s s'} : Reach late n s → Step late s s' → Reach late n s'

/-! ### the handles of `Token.cpp` -/

inductive TPc where
  /-- outside; the result of the last call: the static at its end -/
  | idle (last : Option (Option Nat))
  /-- the static was not set; a handle to publish was opened (49-73; 100-129; 157-166) -/
  | opened (h : Nat)
  /-- lost: about to close the own handle (the destructor of the wrapper, 75-81, 131-137; 171) -/
  | close (h : Nat)
  /-- about to return the static -/
  | ret
deriving DecidableEq

structure TSt where
  /-- the static handle; `none`: `khInvalidHandle` -/
  cache : Option Nat
  /-- for every handle ever opened: how often it was closed -/
  closed : List Nat
  ts : List TPc
deriving DecidableEq

def tinit (n : Nat) : TSt := ⟨none, [], List.replicate n (.idle none)⟩

inductive TStep : TSt → TSt → Prop where
  /-- 21-22, 97-98, 147-148 -/
  | hit (s) (t h : Nat) (x) : s.ts[t]? = some (.idle x) → s.cache = some h → TStep s { s with ts := s.ts.set t .ret }
  /-- the handle is opened -/
  | open (s) (t : Nat) (x) : s.ts[t]? = some (.idle x) → s.cache = none → TStep s { s with closed := s.closed ++ [0], ts := s.ts.set t (.opened s.closed.length) }
  /-- one of the system calls fails -/
  | fail (s) (t : Nat) (x) : s.ts[t]? = some (.idle x) → s.cache = none → TStep s { s with ts := s.ts.set t .ret }
  /-- 75-78, 131-135, 168 -/
  | win (s) (t h : Nat) : s.ts[t]? = some (.opened h) → s.cache = none → TStep s { s with cache := some h, ts := s.ts.set t .ret }
  | lose (s) (t h j : Nat) : s.ts[t]? = some (.opened h) → s.cache = some j → TStep s { s with ts := s.ts.set t (.close h) }
  | close (s) (t h : Nat) : s.ts[t]? = some (.close h) → TStep s { s with closed := s.closed.set h (s.closed[h]?.getD 0 + 1), ts := s.ts.set t .ret }
  /-- 88, 139, 176: a reference to the static is returned; the caller reads it -/
  | ret (s) (t : Nat) : s.ts[t]? = some .ret → TStep s { s with ts := s.ts.set t (.idle (some s.cache)) }

inductive TReach (n : Nat) : TSt → Prop where
  | init : TReach n (tinit n)
  | step {s s'} : TReach n s → TStep s s' → TReach n s'

inductive TSteps : TSt → TSt → Prop where
  | refl {s} : TSteps s s
  | step {s s1 s2} : TSteps s s1 → TStep s1 s2 → TSteps s s2

end Verif.Cache
