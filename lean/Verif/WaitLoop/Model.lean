import Verif.WaitMgr.Model
/-!
# Model of how a thread task runner waits for handles and hands out the results

`ProcessingWaitTasks` (src/YY/Base/Threading/ThreadTaskRunnerWaitManger.h 138-219) with the results it passes on, and the part of the two loops of `ThreadTaskRunnerImpl` that calls
`MsgWaitForMultipleObjectsEx` (ThreadTaskRunnerImpl.cpp 129-145 and 190-196, 222-234).  Built on the model of the manager (`Verif.WaitMgr`).

Completion handlers run inside `Resolve`: they may do any list of events to the manager (`react`).  Simplifications: a tick is 100 ns (the arithmetic of other frequencies is C101);
what the system answers is a parameter.
-/
namespace Verif.WaitLoop
open Verif.WaitMgr

/-- `WAIT_ABANDONED_0`, `WAIT_IO_COMPLETION`, `WAIT_TIMEOUT`, `WAIT_FAILED` (winbase.h); `WAIT_OBJECT_0` is 0 -/
def kAbandoned : Nat := 0x80
def kIo : Nat := 0xC0
def kTimeout : Nat := 0x102
def kFailed : Nat := 0xFFFFFFFF

/-- a call of `Resolve` that completes a wait (217): the wait, the result, and the wait's `uTimeOut` at that moment -/
structure Out where
  w : Nat
  code : Nat
  due : Int
deriving DecidableEq

/-- what the completion handlers of wait `w`, resolved at index `i`, do to the manager -/
abbrev React := Nat → Nat → St → List Ev

/-- `ProcessingWaitTask` (208-219) with the completion handlers; `none`: the handlers do something impossible -/
def processR (hd : Nat → Nat) (react : React) (s : St) (i code : Nat) : Option (St × List Out) :=
  if s.cnt ≤ i then some (s, [])
  else match get s i with
    | none => some (process s i, [])
    | some w =>
      if (s.ws w).status = .started then
        match run hd (process s i) (react i w (process s i)) with
        | none => none
        | some s' => some (s', [⟨w, code, (s.ws w).timeout⟩])
      else some (process s i, [])

/-- the time-out branch (163-184): `n` indices to go -/
def timeoutR (hd : Nat → Nat) (react : React) (now : Int) (s : St) : Nat → Option (St × List Out)
  | 0 => some (s, [])
  | i + 1 =>
    match get s i with
    | none => timeoutR hd react now (removeAt s i) i
    | some w =>
      if ms ((s.ws w).timeout - now) > 0 then timeoutR hd react now s i
      else match processR hd react s i kTimeout with
        | none => none
        | some (s', o) => match timeoutR hd react now s' i with
          | none => none
          | some (s'', o') => some (s'', o ++ o')

/-- what `WaitForSingleObject(h, 0)` answers (194): `probe i h` when asked for index `i`, and `WAIT_FAILED` for `NULL` -/
def single (probe : Nat → Nat → Nat) (i h : Nat) : Nat := if h = 0 then kFailed else probe i h

/-- the branch for failed waits (185-202): `n` indices to go, `srv` is the index of the message queue -/
def failedR (hd : Nat → Nat) (react : React) (probe : Nat → Nat → Nat) (srv : Nat) (s : St) : Nat → Option (St × List Out)
  | 0 => some (s, [])
  | i + 1 =>
    if i ≠ srv then
      if single probe i (s.h i) ≠ kTimeout then
        match processR hd react s i (single probe i (s.h i)) with
        | none => none
        | some (s', o) => match failedR hd react probe srv s' i with
          | none => none
          | some (s'', o') => some (s'', o ++ o')
      else failedR hd react probe srv s i
    else failedR hd react probe srv s i

/-- `ProcessingWaitTasks` (138-205): `r` is the result of the wait, `n` and `srv` the other arguments, `now` the time of 165 -/
def tasks (hd : Nat → Nat) (react : React) (probe : Nat → Nat → Nat) (now : Int) (s : St) (r n srv : Nat) : Option (St × List Out) :=
  if r < n then
    if r ≠ srv then processR hd react s r 0 else some (s, [])
  else if kAbandoned ≤ r ∧ r < kAbandoned + n then
    if r - kAbandoned ≠ srv then processR hd react s (r - kAbandoned) kAbandoned else some (s, [])
  else if r = kIo then some (s, [])
  else if r = kTimeout then timeoutR hd react now s s.cnt
  else failedR hd react probe srv s n

/-- `TickCount::GetMax()` -/
@[irreducible] def tickMax : Int := 2 ^ 64 - 1

/-- `UINT32_MAX`, for the system `INFINITE` -/
@[irreducible] def infinite : Nat := 2 ^ 32 - 1

/-- `GetWaitTimeSpan` (TaskRunnerImpl.cpp 23-41) at the time `now`: milliseconds to sleep -/
def span (now wake : Int) : Nat :=
  if wake = tickMax then infinite
  else if wake - now ≤ 0 then 1
  else if ms (wake - now) ≥ infinite then infinite
  else (max (ms (wake - now)) 1).toNat

/-- the answer of the system: the value of `MsgWaitForMultipleObjectsEx` when asked to wait so many milliseconds for the handles of the manager, and the time afterwards -/
abbrev Os := St → Nat → Nat × Int

/-- the milliseconds that the loop asks the system to wait at most (129-132), after the manager was tidied up -/
def asked (timer now : Int) (s : St) : Nat := span now (min ((minimum s).2.getD tickMax) timer)

/-- one wait of the loop (ThreadTaskRunnerImpl.cpp 129-145): the earliest timer is due at `timer`, the time is `now`.  In the background loop (190-196, 222-234) the message queue's
index is tested first; `tasks` does nothing for it either. -/
def wait (hd : Nat → Nat) (react : React) (probe : Nat → Nat → Nat) (os : Os) (timer now : Int) (s : St) : Option (St × List Out) :=
  let s1 := (minimum s).1
  let a := os s1 (asked timer now s)
  if a.1 = kTimeout ∧ timer < (minimum s).2.getD tickMax then some (s1, [])
  else tasks hd react probe a.2 s1 a.1 (s1.cnt + 1) s1.cnt

/-- several waits, one after the other, each with its timer, time and answer; nothing else touches the manager -/
def waits (hd : Nat → Nat) (react : React) (probe : Nat → Nat → Nat) (s : St) : List (Os × Int × Int) → Option (St × List Out)
  | [] => some (s, [])
  | (os, timer, now) :: l =>
    match wait hd react probe os timer now s with
    | none => none
    | some (s', o) => match waits hd react probe s' l with
      | none => none
      | some (s'', o') => some (s'', o ++ o')

end Verif.WaitLoop
