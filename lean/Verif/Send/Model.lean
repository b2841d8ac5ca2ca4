/-!
# `TaskRunner::SendTask`

Model of the blocking call `TaskRunner::SendTask`
(`src/YY/Base/Threading/TaskRunner.cpp` 280-308) together with the parts of `TaskEntry` it uses:
`Wakeup` (41-47), `WaitTask` (49-68), `RunTask` (81-99), the destructor (36-39), `RefValue::AddRef` /
`Release` (`include/YY/Base/Memory/RefPtr.h` 45-63), and the two ways in which a task runner disposes
of an entry it has accepted:

* the executor: `_pTask->operator()(); _pTask->Release();`
  (`SequencedTaskRunnerImpl.cpp` 143-144, `ThreadTaskRunnerImpl.cpp` 155/249, `ParallelTaskRunnerImpl.hpp`
  348-349, `ThreadTaskRunnerProxyImpl.h` 276-279);
* the clean-up: `_pTask->Wakeup(ERROR_CANCELLED)` followed by the destructor of the `RefPtr`
  (`SequencedTaskRunnerImpl.cpp` 157-164 and the same loop in the other runners).

The entry `_oWorkEntry` is a *local variable* of `SendTask` (297): its storage ends when `SendTask`
returns. Every access after that is undefined behaviour; the model records it in the ghost field `bad`.

Simplifications: sequentially consistent memory; that an accepted entry is taken out of the queue at most
once is a property of the runners (C44, C63, C65) and is built in here (`Exec.queued` is left once).
The body of the callback is an arbitrary computation with one of three outcomes.
-/
namespace Verif.Send

/-- How a callback ends: normally, with `OperationCanceledException`, or with another exception
(which `RunTask`, 87-95, does not catch). -/
inductive Outcome | normal | cancel | other
  deriving DecidableEq, Repr

/-- The values of `TaskEntry::hr` that occur: `E_PENDING`, `S_OK`, `ERROR_CANCELLED`
(`TaskRunner.h` 54, `TaskRunner.cpp` 86-97). -/
inductive Hr | pending | ok | cancelled
  deriving DecidableEq, Repr

/-- What `SendTask` gives back to its caller: the `hr` of the entry, or the refusal of `PostTaskInternal`. -/
inductive Ret | hr (h : Hr) | refused
  deriving DecidableEq, Repr

/-- Program counter of the thread inside `SendTask`. -/
inductive Snd
  /-- before `PostTaskInternal(&_oWorkEntry)` (301), which first makes a `RefPtr`, i.e. `AddRef` -/
  | start
  /-- inside `PostTaskInternal`, the reference is made, the entry not yet in the queue -/
  | posting
  /-- in `WaitOnAddress` (306, 67) -/
  | waiting
  /-- `WaitTask` has returned; 307 reads `hr` next -/
  | reading
  /-- `SendTask` has returned; `_oWorkEntry` is gone -/
  | returned (r : Ret)
  deriving DecidableEq, Repr

/-- Where the entry is on the side of the runner. -/
inductive Exec
  /-- not (yet) handed over -/
  | none
  /-- in the queue of the runner -/
  | queued
  /-- popped by an executor; 83 looks at `fStyle` next -/
  | popped
  /-- the callback runs (89) -/
  | running
  /-- the callback is over; 97 stores the result next -/
  | ran (h : Hr)
  /-- popped by the clean-up, `Wakeup` next -/
  | cleaning
  /-- `Wakeup` done, `Release` next -/
  | woken
  /-- reference released, the runner has nothing more to do with the entry -/
  | done
  deriving DecidableEq, Repr

/-- One call of `SendTask` on a runner the caller does not belong to. -/
structure St where
  snd : Snd := .start
  exec : Exec := .none
  /-- `TaskEntry::hr` -/
  hr : Hr := .pending
  /-- `RefValue::uRef`; 1 for the local variable itself -/
  ref : Nat := 1
  /-- ghost: number of times the callback was started -/
  started : Nat := 0
  /-- ghost: outcomes of the finished runs of the callback -/
  outcomes : List Outcome := []
  /-- the callback let another exception escape; nothing on the way catches it, the program ends -/
  crashed : Bool := false
  /-- ghost: the entry was accessed after `SendTask` returned, or its reference counter went to zero
  (which would run the destructor and `free` on a local variable) -/
  bad : Bool := false
  deriving DecidableEq, Repr

/-- The local variable still exists. -/
def St.alive (s : St) : Prop := ∀ r, s.snd ≠ .returned r

instance (s : St) : Decidable s.alive := by
  unfold St.alive
  exact match h : s.snd with
  | .returned r => isFalse (fun hh => hh r rfl)
  | .start => isTrue (fun _ e => by cases e)
  | .posting => isTrue (fun _ e => by cases e)
  | .waiting => isTrue (fun _ e => by cases e)
  | .reading => isTrue (fun _ e => by cases e)

/-- An access to the entry by the runner: undefined behaviour if the variable is gone. -/
def touch (s : St) : St := if s.alive then s else { s with bad := true }

/-- `TaskEntry::Wakeup` (41-47): `CompareExchange(&hr, h, E_PENDING)`. -/
def wakeup (h : Hr) (s : St) : St := if s.hr = .pending then { s with hr := h } else s

/-- `RefValue::Release` (RefPtr.h 51-63) -/
def release (s : St) : St :=
  if s.ref ≤ 1 then { s with ref := 0, bad := true } else { s with ref := s.ref - 1 }

/-- The value `RunTask` passes to `Wakeup` (86-97). -/
def resultOf : Outcome → Hr
  | .normal => .ok
  | .cancel => .cancelled
  | .other => .cancelled

/-- One atomic step. `sp`: may `WaitOnAddress` return although nobody changed `hr` (the system reserves
the right to do so, and `WaitTask` at 67 does not look again)? -/
inductive Step (sp : Bool) : St → St → Prop
  /-- 301: conversion of `&_oWorkEntry` to `RefPtr<TaskEntry>` -/
  | post (s) : s.crashed = false → s.snd = .start → Step sp s { s with snd := .posting, ref := s.ref + 1 }
  /-- `PostTaskInternal` refuses: the `RefPtr` parameter is destroyed, 302-305 returns the error -/
  | refuse (s) : s.crashed = false → s.snd = .posting → s.exec = .none →
      Step sp s { release s with snd := .returned .refused }
  /-- `PostTaskInternal` pushes the entry (`oTaskQueue.Push(_pTask.Detach())`) -/
  | push (s) : s.crashed = false → s.snd = .posting → s.exec = .none → Step sp s { s with exec := .queued }
  /-- `PostTaskInternal` returns success, 306: `WaitOnAddress` with `hr == E_PENDING` sleeps -/
  | sleep (s) : s.crashed = false → s.snd = .posting → s.exec ≠ .none → Step sp s { s with snd := .waiting }
  /-- `PostTaskInternal` pushed the entry, could not get a thread and cleaned the queue up itself
  (`SequencedTaskRunnerImpl.cpp` 95-101): it returns an error; the entry was popped by its clean-up,
  so no executor has run it -/
  | refuseLate (s) : s.crashed = false → s.snd = .posting → s.exec = .done → s.started = 0 →
      Step sp s { s with snd := .returned .refused }
  /-- `WaitOnAddress` returns because the value is different (before or after a wake-up) -/
  | wake (s) : s.crashed = false → s.snd = .waiting → s.hr ≠ .pending → Step sp s { s with snd := .reading }
  /-- `WaitOnAddress` returns for another reason -/
  | spurious (s) : s.crashed = false → sp = true → s.snd = .waiting → Step sp s { s with snd := .reading }
  /-- 307: `return _oWorkEntry.hr`; the variable's life ends -/
  | ret (s) : s.crashed = false → s.snd = .reading → Step sp s { s with snd := .returned (.hr s.hr) }
  /-- an executor takes the entry -/
  | pop (s) : s.crashed = false → s.exec = .queued → Step sp s { s with exec := .popped }
  /-- 83-89: `IsCanceled()` is false (nobody but the destructor cancels a local entry), start the callback -/
  | start (s) : s.crashed = false → s.exec = .popped →
      Step sp s { touch s with exec := .running, started := s.started + 1 }
  /-- the callback ends; another exception than the caught one ends the program -/
  | finish (s) (o : Outcome) : s.crashed = false → s.exec = .running →
      Step sp s { s with exec := .ran (resultOf o), outcomes := s.outcomes ++ [o], crashed := o = .other }
  /-- 97: `Wakeup(_hr)` -/
  | store (s) (h : Hr) : s.crashed = false → s.exec = .ran h →
      Step sp s { wakeup h (touch s) with exec := .woken }
  /-- the clean-up takes the entry -/
  | clean (s) : s.crashed = false → s.exec = .queued → Step sp s { s with exec := .cleaning }
  /-- the clean-up wakes the waiter -/
  | cleanWake (s) : s.crashed = false → s.exec = .cleaning →
      Step sp s { wakeup .cancelled (touch s) with exec := .woken }
  /-- `_pTask->Release()` of the executor, or the destructor of the `RefPtr` in the clean-up -/
  | release (s) : s.crashed = false → s.exec = .woken → Step sp s { release (touch s) with exec := .done }

/-- States of a single call. -/
inductive Reach (sp : Bool) : St → Prop
  | init : Reach sp {}
  | step {s s'} : Reach sp s → Step sp s s' → Reach sp s'

/-! ## Any number of calls -/

/-- All calls of `SendTask` of a program; each has its own entry. -/
abbrev Sys := Nat → St

/-- One step of one of the calls. -/
inductive SysStep (sp : Bool) : Sys → Sys → Prop
  | mk (σ : Sys) (i : Nat) (s' : St) : Step sp (σ i) s' → SysStep sp σ (fun j => if j = i then s' else σ j)

inductive SysReach (sp : Bool) : Sys → Prop
  | init : SysReach sp (fun _ => {})
  | step {σ σ'} : SysReach sp σ → SysStep sp σ σ' → SysReach sp σ'

/-- Every call of a program is a reachable single call. -/
theorem SysReach.proj {sp σ} (h : SysReach sp σ) (i : Nat) : Reach sp (σ i) := by
  induction h with
  | init => exact .init
  | step _ st ih =>
    cases st with
    | mk j s' hs =>
      by_cases e : i = j
      · subst e; simpa using Reach.step ih hs
      · simpa [e] using ih

/-! ## The direct call -/

/-- 283-295: the caller belongs to the runner; the callback is called in place. `none`: the exception
leaves `SendTask`. -/
def direct : Outcome → Option Hr
  | .normal => some .ok
  | .cancel => some .cancelled
  | .other => none

end Verif.Send
