/-!
# Model of `LowPrivilegeCreateProcessW`

src/YY/Base/Process/Process.cpp 18-127, include/YY/Base/Security/ThreadImpersonationScope.h 10-51.

The system is a small state: the calling thread's impersonation token, the privileges of every token object, the open handles, the processes made. What each system call answers is an arbitrary `Env`.
Token objects are numbers; handles are numbers, never given twice. One thread. The shared tokens of `Token::GetImpersonationSystemToken` and `GetLimitedToken` (C74) are taken as answers of `Env`: their handles belong to the process for ever.
Closing a handle that is not open is undefined (`none`).
-/
namespace Verif.LowPriv

abbrev Err := BitVec 32

def errAccessDenied : Err := 5#32
def errPrivilegeNotHeld : Err := 1314#32
def errNoToken : Err := 1008#32
/-- `ERROR_FUNCTION_NOT_CALLED` -/
def errNotCalled : Err := 1626#32

/-- `__HRESULT_FROM_WIN32` (winerror.h: `(HRESULT)(x) <= 0 ? x : (x & 0xFFFF) | 0x80070000`) -/
def hrFromWin32 (e : Err) : BitVec 32 := if e.toInt ≤ 0 then e else (e &&& 0xFFFF#32) ||| 0x80070000#32

/-- `SUCCEEDED` -/
def succeeded (hr : BitVec 32) : Bool := 0 ≤ hr.toInt

inductive Elev where
  | default | full | limited
deriving DecidableEq

/-- whose rights a new process has -/
inductive Rights where
  /-- those of the calling process -/
  | own
  /-- those of the token object -/
  | tok (t : Nat)
deriving DecidableEq

structure Proc where
  rights : Rights
  /-- the calling thread's token at the time -/
  under : Option Nat
deriving DecidableEq

structure Os where
  /-- the impersonation token of the calling thread -/
  thread : Option Nat
  /-- has a token the privileges `SE_IMPERSONATE` and `SE_ASSIGNPRIMARYTOKEN` enabled? -/
  imp : Nat → Bool
  assign : Nat → Bool
  open_ : List Nat
  next : Nat
  procs : List Proc
  /-- the static `s_eTokenElevationType` (46) -/
  cached : Option Elev

/-- The answers of the system: `none` for success, else the last error. -/
structure Env where
  /-- `OpenProcessToken` (21) -/
  openProc : Bool
  /-- `GetElevationType` (24) -/
  query : Option Elev
  /-- `Token::GetImpersonationSystemToken` (55): the token object -/
  impTok : Option Nat
  /-- `OpenThreadToken` (19) when the thread has a token -/
  openThread : Option Err
  /-- `SetThreadToken` (28) -/
  set : Option Err
  /-- `SetThreadToken` (38) -/
  restore : Option Err
  /-- `Token::GetLimitedToken` (67): the token object -/
  limTok : Option Nat
  /-- `DuplicateTokenEx` (74) -/
  dup : Option Err
  /-- `CreateProcessAsUserW` (85) -/
  asUser : Option Err
  /-- `CreateProcessW` (114) -/
  create : Option Err

def openHandle (s : Os) : Os × Nat := ({ s with open_ := s.next :: s.open_, next := s.next + 1 }, s.next)

/-- `CloseHandle` -/
def closeHandle (s : Os) (h : Nat) : Option Os := if h ∈ s.open_ then some { s with open_ := s.open_.erase h } else none

/-- `GetTokenElevationType` (18-31): the destructor of `hToken` closes the handle on both ways out -/
def getElev (env : Env) (s : Os) : Option (Os × Elev) :=
  if env.openProc then
    let (s, h) := openHandle s
    (closeHandle s h).map (·, env.query.getD .default)
  else some (s, .default)

/-- the first use of the static (46) -/
def elevation (env : Env) (s : Os) : Option (Os × Elev) :=
  match s.cached with
  | some e => some (s, e)
  | none => (getElev env s).map fun p => ({ p.1 with cached := some p.2 }, p.2)

/-- `ThreadImpersonationScope` (13-14); the previous token is remembered with its handle -/
structure Scope where
  prev : Option (Nat × Nat)
  status : Err

/-- `ThreadImpersonationScope::ThreadImpersonationScope` (17-29) -/
def enter (env : Env) (s : Os) (imp : Nat) : Os × Scope :=
  match s.thread with
  | some t =>
    match env.openThread with
    | some e => if e ≠ errNoToken then (s, ⟨none, e⟩) else setTo env s imp none
    | none =>
      let (s, h) := openHandle s
      setTo env s imp (some (h, t))
  | none => setTo env s imp none
where
  /-- line 28 -/
  setTo (env : Env) (s : Os) (imp : Nat) (prev : Option (Nat × Nat)) : Os × Scope :=
    match env.set with
    | none => ({ s with thread := some imp }, ⟨prev, 0#32⟩)
    | some e => (s, ⟨prev, e⟩)

/-- `ThreadImpersonationScope::~ThreadImpersonationScope` (34-45): the answer of `SetThreadToken` is not looked at -/
def leave (env : Env) (s : Os) (sc : Scope) : Option Os :=
  let s := if sc.status = 0#32 then (match env.restore with | none => { s with thread := sc.prev.map (·.2) } | some _ => s) else s
  match sc.prev with
  | none => some s
  | some (h, _) => closeHandle s h

/-- the two `RtlAdjustPrivilege(…, TRUE, TRUE, …)` (64-65): they act on the token of the thread; a thread without token gives an error, which is not looked at.
The model lets them succeed whenever there is a token. -/
def adjust (s : Os) : Os :=
  match s.thread with
  | none => s
  | some t => { s with imp := fun x => x = t || s.imp x, assign := fun x => x = t || s.assign x }

/-- lines 67-110 inside the scope: `some hr` returns from the function, `none` breaks out of the loop; the `Option` outside is undefined behaviour -/
def inScope (env : Env) (s : Os) : Option (Os × Option (BitVec 32)) :=
  match env.limTok with
  | none => some (s, none)
  | some lim =>
    match env.dup with
    | some _ => some (s, none)
    | none =>
      let (s, h) := openHandle s
      match env.asUser with
      | none => (closeHandle { s with procs := s.procs ++ [⟨.tok lim, s.thread⟩] } h).map (·, some 0#32)
      | some e =>
        if e = errAccessDenied ∨ e = errPrivilegeNotHeld then (closeHandle s h).map (·, none)
        else (closeHandle s h).map (·, some (hrFromWin32 e))

/-- lines 48-111 -/
def tryLimited (env : Env) (s : Os) : Option (Os × Option (BitVec 32)) :=
  match elevation env s with
  | none => none
  | some (s, e) =>
    if e ≠ .full then some (s, none)
    else
      match env.impTok with
      | none => some (s, none)
      | some imp =>
        let (s, sc) := enter env s imp
        match inScope env (adjust s) with
        | none => none
        | some (s, r) => (leave env s sc).map (·, r)

/-- lines 113-126 -/
def fallback (env : Env) (s : Os) : Os × BitVec 32 :=
  match env.create with
  | none => ({ s with procs := s.procs ++ [⟨.own, s.thread⟩] }, 0#32)
  | some e => (s, hrFromWin32 e)

/-- `LowPrivilegeCreateProcessW` (33-127) -/
def lowPriv (env : Env) (s : Os) : Option (Os × BitVec 32) :=
  match tryLimited env s with
  | none => none
  | some (s, some hr) => some (s, hr)
  | some (s, none) => some (fallback env s)

end Verif.LowPriv
