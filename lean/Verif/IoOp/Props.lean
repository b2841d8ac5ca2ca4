import Verif.IoOp.Model

/-!
# C68: asynchronous file operations

The claim "the operation object is destroyed when nobody refers to it any more" is false: the move constructor
of `AsyncFile` forgets that completion packets are suppressed, so every request that succeeds at once on a
moved handle (every handle of `AsyncPipe::Open`) leaks its operation (`C68_leak_fails`). "The buffer is free when
the task is over" is false after a cancellation (`C68_buffer_fails`).
-/
namespace Verif.IoOp

/-- Further steps. -/
inductive Steps (v : Env) : St → St → Prop
  | refl (s) : Steps v s s
  | tail {s t u} : Steps v s t → Step v t u → Steps v s u

theorem Steps.reach {v s t} (h : Steps v s t) (r : Reach v s) : Reach v t := by
  induction h with
  | refl => exact r
  | tail _ st ih => exact .step ih st

/-! ## References -/

/-- The initiating thread has a reference of its own until it returns; it also has the one made for the system
when the system does not want it: the request failed, or succeeded at once without a packet. -/
def iniHas (v : Env) : Ini → Nat
  | .start | .arm | .ret => 1
  | .res o _ | .after o => match o with
    | .sync => if v.osSkip then 2 else 1
    | .pending => 1
    | .fail _ => 2
  | .done => 0

/-- The system refers to the object until the callback is called. -/
def kernHas : Kern → Nat
  | .pending | .packet => 1
  | .none | .over => 0

def cbHas : Option R → Nat
  | some _ => 1
  | none => 0

/-- Number of those who refer to the operation and will use it. -/
def owners (v : Env) (s : St) : Nat := iniHas v s.ini + kernHas s.kern + cbHas s.cb + s.users

/-- Place of the initiating thread inside `Resolve`. -/
def iniR : Ini → Option R
  | .res _ r => some r
  | _ => none

/-- Inside `Resolve`, the status not yet decided. -/
def mid : Option R → Bool
  | some .chk | some .cancel | some .cas => true
  | _ => false

/-- Status code known to the initiating thread. -/
def iniCode : Ini → Option Nat
  | .res o _ | .after o => match o with
    | .sync => some 0
    | .pending => some 0
    | .fail e => some e
  | _ => none

/-- Order of events, independent of references. -/
structure Inv (s : St) : Prop where
  start : s.ini = .start → s.kern = .none
  noReq : s.kern = .none → s.cb = none ∧ s.res = none ∧ s.lst = none ∧ (s.ini = .start ∨ s.ini = .ret ∨ s.ini = .done) ∧
    s.status ≠ .completed ∧ (s.ini ≠ .start → s.status = .canceled) ∧ (s.ini = .start → s.status = .started)
  pend : s.kern = .pending → s.cb = none ∧ s.res = none ∧ s.lst = none ∧ (s.ini = .arm ∨ s.ini = .ret ∨ s.ini = .done) ∧
    s.status ≠ .completed
  pack : s.kern = .packet → s.cb = none
  has : s.kern = .packet ∨ s.kern = .over → s.res ≠ none
  code : ∀ e, iniCode s.ini = some e → s.res.map Prod.fst = some e
  lst : ∀ e, s.lst = some e → s.res.map Prod.fst = some e
  live : s.status = .started → s.kern = .over → mid s.cb = true ∨ mid (iniR s.ini) = true
  stored : s.status = .completed → s.lst ≠ none ∨ s.cb = some .store ∨ iniR s.ini = some .store
  inStore : (s.cb = some .store ∨ iniR s.ini = some .store) → s.status = .completed
  users : s.ini ≠ .done → s.users = 0

theorem inv_init : Inv {} := by
  constructor <;> simp [iniR, iniCode]

theorem iniCode_out (o r) : iniCode (.res o r) = some (outCode o) := by cases o <;> rfl

theorem inv_step {v s s'} (h : Inv s) (st : Step v s s') : Inv s' := by
  obtain ⟨a1, a2, a3, a4, a5, a6, a7, a8, a9, a10, a11⟩ := h
  cases st with
  | iniRes o r p q =>
    have := iniCode_out o
    cases r <;> constructor <;> grind [rstep, isCanceled, cancelSt, mid, iniR, iniCode]
  | cbRes r e n p q w =>
    cases r <;> constructor <;> grind [rstep, isCanceled, cancelSt, mid, iniR]
  | iniFin o p =>
    have : iniCode (.res o .fin) = iniCode (.after o) := by cases o <;> rfl
    constructor <;> grind [iniR, mid]
  | _ => constructor <;> grind [cancelSt, mid, iniR, iniCode]

theorem reach_inv {v s} (h : Reach v s) : Inv s := by
  induction h with
  | init => exact inv_init
  | step _ st ih => exact inv_step ih st

/-- As `iniHas`, but by what the thread is going to release. -/
def iniRel (v : Env) : Ini → Nat
  | .start | .arm | .ret => 1
  | .res o _ | .after o => if releases v o then 2 else 1
  | .done => 0

def bal (v : Env) (s : St) : Nat := iniRel v s.ini + kernHas s.kern + cbHas s.cb + s.users

theorem pos_acc {t : St} (h1 : 1 ≤ t.ref) (h2 : t.bad = false) : acc t = false := by
  simp [acc, h2]; omega

/-- After the system call a surplus `k` of the counter does not change. -/
theorem ref_step {v s s' k} (hs : s.ini ≠ .start) (h : s.ref = bal v s + k) (hb : s.bad = false)
    (hi : Inv s) (st : Step v s s') : s'.ini ≠ .start ∧ s'.ref = bal v s' + k ∧ s'.bad = false := by
  cases st with
  | token => exact ⟨hs, h, hb⟩
  | early p q => exact absurd p hs
  | sync n p => exact absurd p hs
  | pend p => exact absurd p hs
  | fail e p => exact absurd p hs
  | warn e n _ p => exact absurd p hs
  | iniRes o r p q =>
    simp only [bal, p, iniRel] at *
    exact ⟨by simp, h, pos_acc (by split at h <;> omega) hb⟩
  | iniFin o p =>
    simp only [bal, p, iniRel] at *
    exact ⟨by simp, h, hb⟩
  | iniRel o p q =>
    simp only [bal, p, Verif.IoOp.iniRel, q, if_true] at *
    exact ⟨by simp, by omega, pos_acc (by omega) hb⟩
  | iniKeep o p q =>
    simp only [bal, p, Verif.IoOp.iniRel, q] at *
    exact ⟨by simp, h, hb⟩
  | armCancel p q =>
    simp only [bal, p, iniRel] at *
    exact ⟨by simp, h, pos_acc (by omega) hb⟩
  | armGo p q =>
    simp only [bal, p, iniRel] at *
    exact ⟨by simp, h, pos_acc (by omega) hb⟩
  | ret p =>
    simp only [bal, p, iniRel] at *
    exact ⟨by simp, by omega, hb⟩
  | complete e n p =>
    simp only [bal, p, kernHas] at *
    exact ⟨hs, h, pos_acc (by omega) hb⟩
  | deliver p =>
    have := hi.pack p
    simp only [bal, p, kernHas, this, cbHas] at *
    exact ⟨hs, by omega, hb⟩
  | cbRes r e n p q w =>
    simp only [bal, p, cbHas] at *
    exact ⟨hs, h, pos_acc (by omega) hb⟩
  | cbEnd p =>
    simp only [bal, p, cbHas] at *
    exact ⟨hs, by omega, pos_acc (by omega) hb⟩
  | dup p =>
    simp only [bal] at *
    exact ⟨hs, by omega, pos_acc (by omega) hb⟩
  | drop p =>
    simp only [bal] at *
    exact ⟨hs, by omega, pos_acc (by omega) hb⟩
  | cancel p =>
    simp only [bal] at *
    exact ⟨hs, h, pos_acc (by omega) hb⟩

theorem ref_steps {v s s' k} (r : Reach v s) (hs : s.ini ≠ .start) (h : s.ref = bal v s + k) (hb : s.bad = false)
    (st : Steps v s s') : s'.ini ≠ .start ∧ s'.ref = bal v s' + k ∧ s'.bad = false := by
  induction st with
  | refl => exact ⟨hs, h, hb⟩
  | tail hst st ih => exact ref_step ih.1 ih.2.1 ih.2.2 (reach_inv (hst.reach r)) st

/-- Before the system call. -/
theorem at_start {v s} (r : Reach v s) (h : s.ini = .start) :
    s.ref = 1 ∧ s.users = 0 ∧ s.cb = none ∧ s.kern = .none ∧ s.bad = false := by
  induction r with
  | init => simp
  | step r st ih =>
    cases st with
    | token => exact ih h
    | complete e n p =>
      have := (ih h).2.2.2.1; rw [p] at this; cases this
    | deliver p =>
      have := (ih h).2.2.2.1; rw [p] at this; cases this
    | cbRes q e n p => have := (ih h).2.2.1; rw [p] at this; cases this
    | cbEnd p => have := (ih h).2.2.1; rw [p] at this; cases this
    | dup p => have := (ih h).2.1; omega
    | drop p => have := (ih h).2.1; omega
    | cancel p => have := (ih h).2.1; omega
    | _ => cases h

theorem owners_bal {v} (e : v.flag = v.osSkip) (s : St) : owners v s = bal v s := by
  have : iniHas v s.ini = iniRel v s.ini := by
    cases s.ini with
    | res o r => cases o <;> simp [iniHas, iniRel, releases, e]
    | after o => cases o <;> simp [iniHas, iniRel, releases, e]
    | _ => rfl
  simp [owners, bal, this]

/-- **C68** (handle whose object knows about suppressed packets, no warnings): in every reachable state the counter
is the number of those who refer to the operation, and it is never used after its destruction. So it is
destroyed exactly when the initiating thread, the system, the callback and all users are through with it. -/
theorem C68_refs_partial {v s} (r : Reach v s) (e : v.flag = v.osSkip) (w : v.warn = false) :
    s.ref = owners v s ∧ s.bad = false := by
  rw [owners_bal e]
  induction r with
  | init => exact ⟨rfl, rfl⟩
  | step r st ih =>
    rename_i s s'
    by_cases hs : s.ini = .start
    · obtain ⟨h1, h2, h3, h4, h5⟩ := at_start r hs
      have ha : acc s = false := pos_acc (by omega) h5
      cases st with
      | token => exact ih
      | early p q => simp [bal, iniRel, h1, h2, h3, h4, ha, kernHas, cbHas]
      | sync n p =>
        refine ⟨?_, ha⟩
        cases hh : v.osSkip <;> simp [bal, iniRel, releases, kernHas, cbHas, e, hh, h1, h2, h3]
      | pend p => simp [bal, iniRel, h1, h2, h3, ha, kernHas, cbHas]
      | fail e p => simp [bal, iniRel, h1, h2, h3, ha, kernHas, cbHas, releases]
      | warn e n f p => rw [w] at f; cases f
      | iniRes o q p => rw [hs] at p; cases p
      | iniFin o p => rw [hs] at p; cases p
      | iniRel o p => rw [hs] at p; cases p
      | iniKeep o p => rw [hs] at p; cases p
      | armCancel p => rw [hs] at p; cases p
      | armGo p => rw [hs] at p; cases p
      | ret p => rw [hs] at p; cases p
      | complete e n p => rw [h4] at p; cases p
      | deliver p => rw [h4] at p; cases p
      | cbRes q e n p => rw [h3] at p; cases p
      | cbEnd p => rw [h3] at p; cases p
      | dup p => omega
      | drop p => omega
      | cancel p => omega
    · exact (ref_step (k := 0) hs ih.1 ih.2 (reach_inv r) st).2

/-- **C68 fails**: the object of the handle does not know that packets are suppressed, and the request succeeds at
once. Then in every later state, whatever anybody does, the counter is one above the number of owners: the
operation is never destroyed. -/
theorem C68_leak_fails {v s u t} (r : Reach v s) (hs : s.ini = .start) (ho : v.osSkip = true) (hf : v.flag = false)
    (hu : Step v s u) (hk : u.ini = .res .sync .chk) (st : Steps v u t) :
    t.ref = bal v t + 1 ∧ 1 ≤ t.ref := by
  obtain ⟨h1, h2, h3, h4, h5⟩ := at_start r hs
  have hh : u.ref = bal v u + 1 ∧ u.bad = false := by
    have ha : acc s = false := pos_acc (by omega) h5
    cases hu with
    | sync n p => simp [bal, iniRel, releases, kernHas, cbHas, ho, hf, h1, h2, h3, ha]
    | iniRes o q p => rw [hs] at p; cases p
    | fail => cases hk
    | warn => cases hk
    | early => cases hk
    | pend => cases hk
    | iniFin => cases hk
    | iniRel => cases hk
    | iniKeep => cases hk
    | armCancel => cases hk
    | armGo => cases hk
    | ret => cases hk
    | _ => rw [hs] at hk; cases hk
  have := ref_steps (k := 1) (r.step hu) (by rw [hk]; simp) hh.1 hh.2 st
  exact ⟨this.2.1, by omega⟩

/-! ## Results -/

theorem result_step {v s u} (r : Reach v s) (l : Nat) (h : s.lst = some l) (st : Step v s u) :
    u.res = s.res ∧ u.lst = some l := by
  have I := reach_inv r
  have J := reach_inv (r.step st)
  have hr : u.res = s.res := by
    cases st with
    | complete e n p => have := I.pend p; rw [this.2.2.1] at h; cases h
    | sync n p => have := I.noReq (I.start p); rw [this.2.2.1] at h; cases h
    | fail e p => have := I.noReq (I.start p); rw [this.2.2.1] at h; cases h
    | warn e n f p => have := I.noReq (I.start p); rw [this.2.2.1] at h; cases h
    | _ => rfl
  have hn : u.lst ≠ none := by
    cases st with
    | iniRes o q p w => cases q <;> simp [rstep, h]; split <;> simp [h]
    | cbRes q e n p w x => cases q <;> simp [rstep, h]; split <;> simp [h]
    | _ => simp [h]
  refine ⟨hr, ?_⟩
  cases hu : u.lst with
  | none => exact absurd hu hn
  | some l' => have := J.lst l' hu; rw [hr, I.lst l h] at this; exact this.symm

/-- **C68**: the result given to a user is the system's. A status code stored in the operation is that of its request,
the request is over, and code and byte count stay as they are in all later states. -/
theorem C68_result {v s} (r : Reach v s) (l : Nat) (h : s.lst = some l) :
    (∃ n, s.res = some (l, n)) ∧ s.kern ≠ .pending ∧
    ∀ t, Steps v s t → t.res = s.res ∧ t.lst = some l := by
  have I := reach_inv r
  refine ⟨?_, ?_, fun t st => ?_⟩
  · have := I.lst l h
    cases hh : s.res with
    | none => rw [hh] at this; cases this
    | some p => rw [hh] at this; exact ⟨p.2, by cases p; simp at this; simp [this]⟩
  · intro hk; have := (I.pend hk).2.2.1; rw [h] at this; cases this
  · induction st with
    | refl => exact ⟨rfl, h⟩
    | tail hst st ih =>
      have := result_step (hst.reach r) l ih.2 st
      exact ⟨this.1.trans ih.1, this.2⟩

/-- **C68**: every operation comes to an end: when neither the initiating thread, nor the system, nor the callback has
anything left to do, its status is final, and if it is `Completed` the status code is there. -/
theorem C68_completes {v s} (r : Reach v s) (hi : s.ini = .done) (hk : s.kern = .over ∨ s.kern = .none)
    (hc : s.cb = none) : s.status = .canceled ∨ (s.status = .completed ∧ ∃ l, s.lst = some l) := by
  have I := reach_inv r
  cases hs : s.status with
  | canceled => exact .inl rfl
  | completed =>
    refine .inr ⟨rfl, ?_⟩
    rcases I.stored hs with h | h | h
    · cases hl : s.lst with
      | none => exact absurd hl h
      | some l => exact ⟨l, rfl⟩
    · rw [hc] at h; cases h
    · rw [hi] at h; cases h
  | started =>
    rcases hk with hk | hk
    · rcases I.live hs hk with h | h
      · rw [hc] at h; cases h
      · rw [hi] at h; cases h
    · have := (I.noReq hk).2.2.2.2.2.1 (by rw [hi]; simp); rw [hs] at this; cases this

/-- **C68**: the status of an operation changes once. -/
theorem C68_status_final {v s u} (st : Step v s u) (h : s.status ≠ .started) : u.status = s.status := by
  cases st with
  | iniRes o q p w => cases q <;> simp [rstep, cancelSt, h]
  | cbRes q e n p w x => cases q <;> simp [rstep, cancelSt, h]
  | _ => simp [cancelSt, h]

/-- **C68** (no cancellation): when the task is `Completed` the system has finished with the buffer, and never
writes to it again. -/
theorem C68_buffer_partial {v s t} (r : Reach v s) (h : s.status = .completed) (st : Steps v s t) :
    t.kern ≠ .pending := by
  have : t.status = .completed := by
    induction st with
    | refl => exact h
    | tail _ st ih => rw [C68_status_final st (by rw [ih]; simp)]; exact ih
  intro hk
  exact ((reach_inv (st.reach r)).pend hk).2.2.2.2 this

/-- **C68**: `GetResult` gives the byte count; the last error is set exactly when it is zero. -/
theorem C68_getResult (n l : Nat) :
    (getResult n l).1 = n ∧ ((getResult n l).2 = some l ↔ n = 0) ∧ ((getResult n l).2 = none ↔ n ≠ 0) := by
  unfold getResult; split <;> simp_all

/-! ## Handles -/

/-- An `AsyncFile` object knows the mode of its handle: `skip h` is the mode of handle `h`. -/
def Knows (skip : Nat → Bool) (f : File) : Prop := ∀ h, f.h = some h → f.flag = skip h

/-- **C68**: objects made from a handle know its mode, and assignment keeps that (and closes exactly the old handle). -/
theorem C68_handle_partial (skip : Nat → Bool) :
    (∀ h, Knows skip (mkFile (some h) (skip h))) ∧
    (∀ t o, Knows skip t → Knows skip o → Knows skip (moveAssign t o).1 ∧ Knows skip (moveAssign t o).2.1) ∧
    (∀ t o, t.h ≠ o.h → (moveAssign t o).1.h = o.h ∧ (moveAssign t o).2.1.h = none ∧ (moveAssign t o).2.2 = t.h) := by
  refine ⟨?_, ?_, ?_⟩
  · intro h g hg; simp [mkFile] at *; rw [hg]
  · intro t o ht ho
    unfold moveAssign
    split
    · exact ⟨fun h hh => ho h hh, fun h hh => by cases hh⟩
    · exact ⟨ht, ho⟩
  · intro t o h; simp [moveAssign, h]

/-- **C68 fails**: an object made by the move constructor does not know the mode, in particular none returned by
`AsyncPipe::Open` whose handle is in the mode. -/
theorem C68_handle_fails (skip : Nat → Bool) (h : Nat) (hs : skip h = true) :
    (∀ f : File, f.h = some h → ¬ Knows skip (moveNew f).1) ∧ ¬ Knows skip (pipeOpen (some h) (skip h)) := by
  have key : ∀ f : File, f.h = some h → ¬ Knows skip (moveNew f).1 := by
    intro f hf hk
    have := hk h (by simp [moveNew, hf])
    rw [hs] at this; cases this
  exact ⟨key, key (mkFile (some h) (skip h)) rfl⟩

/-- Status a user may expect from `ConnectAsync`: zero exactly if a client is connected. `ConnectNamedPipe` fails with
`ERROR_PIPE_CONNECTED` (535) when a client connected before the call; the connection is good. -/
def connected : Out → Bool
  | .sync => true
  | .pending => false
  | .fail e => e == 535

/-- **C68 fails**: `ConnectAsync` reports an error for a good connection. -/
theorem C68_connect_fails : ∃ o l, connected o = true ∧ connectStatus o = some l ∧ l ≠ 0 :=
  ⟨.fail 535, 535, rfl, rfl, by decide⟩

/-- It is right in all other cases. -/
theorem C68_connect_partial (o : Out) (l : Nat) (h : connectStatus o = some l) (hw : o ≠ .fail 535)
    (hf : ∀ e, o = .fail e → e ≠ 0) : l = 0 ↔ connected o = true := by
  cases o with
  | sync => simp_all [connectStatus, connected]
  | pending => cases h
  | fail e => simp_all [connectStatus, connected]

/-! ## Witnesses -/

theorem Reach.cast {v} {s t : St} (h : Reach v s) (e : s = t) : Reach v t := e ▸ h

/-- A pending read of 5 bytes, completed by the system, callback over, one `Task` left. -/
theorem demo_pending (v : Env) : Reach v
    { ini := .done, kern := .over, users := 1, ref := 1, status := .completed, lst := some 0, res := some (0, 5) } := by
  have r1 := Reach.step (v := v) .init (Step.pend _ rfl)
  have r2 := Reach.step r1 (Step.armGo _ rfl (by decide))
  have r3 := Reach.step r2 (Step.ret _ rfl)
  have r4 := Reach.step r3 (Step.complete _ 0 5 rfl)
  have r5 := Reach.step r4 (Step.deliver _ rfl)
  have r6 := Reach.step r5 (Step.cbRes _ .chk 0 5 rfl (by simp) rfl)
  have r7 := Reach.step r6 (Step.cbRes _ .cas 0 5 rfl (by simp) rfl)
  have r8 := Reach.step r7 (Step.cbRes _ .store 0 5 rfl (by simp) rfl)
  have r9 := Reach.step r8 (Step.cbEnd _ rfl)
  exact r9.cast (by decide)

/-- **C68 fails** (buffer): a user cancels a pending read; the task is `Canceled` while the system still writes into
the buffer. -/
theorem C68_buffer_fails (v : Env) : ∃ s, Reach v s ∧ s.ini = .done ∧ s.status = .canceled ∧ s.kern = .pending := by
  have r1 := Reach.step (v := v) .init (Step.pend _ rfl)
  have r2 := Reach.step r1 (Step.armGo _ rfl (by decide))
  have r3 := Reach.step r2 (Step.ret _ rfl)
  exact ⟨_, r3.step (Step.cancel _ (by decide)), rfl, rfl, rfl⟩

/-- The same with a cancellation token: `IsCanceled`, `WaitTask` and `GetResult` report the cancellation at once. -/
theorem C68_token_fails (v : Env) : ∃ s, Reach v s ∧ s.ini = .done ∧ isCanceled s = true ∧ s.kern = .pending := by
  have r1 := Reach.step (v := v) .init (Step.pend _ rfl)
  have r2 := Reach.step r1 (Step.armGo _ rfl (by decide))
  have r3 := Reach.step r2 (Step.ret _ rfl)
  exact ⟨_, r3.step (Step.token _), rfl, rfl, rfl⟩

/-- The leak occurs: nobody refers to the operation any more, its counter is 1. -/
theorem C68_leak_concrete_fails : ∃ s, Reach ⟨true, false, false⟩ s ∧ s.ini = .done ∧ s.users = 0 ∧ s.kern = .over ∧
    s.cb = none ∧ s.ref = 1 := by
  have r1 := Reach.step (v := ⟨true, false, false⟩) .init (Step.sync _ 5 rfl)
  have r2 := Reach.step r1 (Step.iniRes _ .sync .chk rfl (by simp))
  have r3 := Reach.step r2 (Step.iniRes _ .sync .cas rfl (by simp))
  have r4 := Reach.step r3 (Step.iniRes _ .sync .store rfl (by simp))
  have r5 := Reach.step r4 (Step.iniFin _ .sync rfl)
  have r6 := Reach.step r5 (Step.iniKeep _ .sync rfl rfl)
  have r7 := Reach.step r6 (Step.ret _ rfl)
  have r8 := Reach.step r7 (Step.drop _ (by decide))
  exact ⟨_, r8, by decide, by decide, by decide, by decide, by decide⟩

/-- **C68 fails** (warnings): a request that "fails" with a warning releases the system's reference at once, and its
packet does it again: the object is gone while the caller's `Task` refers to it. -/
theorem C68_warn_fails : ∃ s, Reach ⟨false, false, true⟩ s ∧ s.users = 1 ∧ s.ref = 0 := by
  have r1 := Reach.step (v := ⟨false, false, true⟩) .init (Step.warn _ 234 5 rfl rfl (by simp))
  have r2 := Reach.step r1 (Step.iniRes _ (.fail 234) .chk rfl (by simp))
  have r3 := Reach.step r2 (Step.iniRes _ (.fail 234) .cas rfl (by simp))
  have r4 := Reach.step r3 (Step.iniRes _ (.fail 234) .store rfl (by simp))
  have r5 := Reach.step r4 (Step.iniFin _ (.fail 234) rfl)
  have r6 := Reach.step r5 (Step.iniRel _ (.fail 234) rfl rfl)
  have r7 := Reach.step r6 (Step.ret _ rfl)
  have r8 := Reach.step r7 (Step.deliver _ rfl)
  have r9 := Reach.step r8 (Step.cbRes _ .chk 234 5 rfl (by simp) rfl)
  have r10 := Reach.step r9 (Step.cbRes _ .cas 234 5 rfl (by simp) rfl)
  have r11 := Reach.step r10 (Step.cbEnd _ rfl)
  exact ⟨_, r11, by decide, by decide⟩

end Verif.IoOp
