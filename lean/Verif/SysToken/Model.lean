/-!
# Model of the token searches (src/YY/Base/Security/Token.cpp 15-212)

`Token::GetSystemToken`, `Token::GetLimitedToken` and `Token::GetImpersonationSystemToken` with every kernel handle they open, use and close.  The
operating system is an arbitrary environment; a handle that has been opened gets a fresh number.  What other threads do is reduced to whether one of them
has published its token at the moment of the `CompareExchangePoint`; the publication itself is C74.
-/
namespace Verif.SysToken

/-- what happens to kernel handles -/
inductive Ev where
  | opened (h : Nat)
  | used (h : Nat)
  | closed (h : Nat)
deriving DecidableEq

/-- a process of the snapshot and what the calls on it answer -/
structure Proc where
  /-- `szExeFile`, UTF-16 units -/
  exe : List Nat
  /-- `OpenProcess` succeeds (49) -/
  canOpen : Bool
  /-- `OpenProcessToken` (54-57) fails, or succeeds and `GetSessionId` (65) answers -/
  token : Option (Option Nat)
  /-- ghost: the process runs under the system account -/
  system : Bool
deriving DecidableEq

/-- `wcsrchr(…, L'\\')` and the increment (39-44): the text behind the last backslash, all of it if there is none -/
def baseName : List Nat → List Nat
  | [] => []
  | c :: cs => if 92 ∈ cs then baseName cs else if c = 92 then cs else c :: cs

/-- lower case of `_wcsicmp` (46) in the "C" locale -/
def lower (c : Nat) : Nat := if 65 ≤ c ∧ c ≤ 90 then c + 32 else c

/-- `L"winlogon.exe"` -/
def winlogon : List Nat := [119, 105, 110, 108, 111, 103, 111, 110, 46, 101, 120, 101]

/-- the test of line 46 -/
def named (p : Proc) : Bool := decide ((baseName p.exe).map lower = winlogon)

/-- The loop 37-81 from handle number `n` on; `other`: the `CompareExchangePoint` finds a token of another thread.  The result is the token this thread has
published, with the process it belongs to. -/
def search (session : Nat) (other : Bool) : Nat → List Proc → List Ev × Option (Nat × Proc)
  | _, [] => ([], none)
  | n, p :: ps =>
    if !named p then search session other n ps
    else if !p.canOpen then search session other n ps
    else match p.token with
      | none =>
        let r := search session other (n + 1) ps
        ([.opened n, .used n, .closed n] ++ r.1, r.2)
      | some s =>
        if s ≠ some session then
          let r := search session other (n + 2) ps
          ([.opened n, .used n, .opened (n + 1), .used (n + 1), .closed (n + 1), .closed n] ++ r.1, r.2)
        else if other then
          ([.opened n, .used n, .opened (n + 1), .used (n + 1), .closed (n + 1), .closed n], none)
        else
          ([.opened n, .used n, .opened (n + 1), .used (n + 1), .closed n], some (n + 1, p))

structure Env where
  /-- `s_hSystemToken.IsValid()` (21) -/
  cached : Bool
  /-- `CreateToolhelp32Snapshot` succeeds (24-28) -/
  snapshot : Bool
  procs : List Proc
  session : Nat
  other : Bool

/-- `GetSystemToken` (15-89).  Handle 0 is the snapshot. -/
def getSystem (e : Env) : List Ev × Option (Nat × Proc) :=
  if e.cached then ([], none)
  else if !e.snapshot then ([], none)
  else
    let r := search e.session e.other 1 e.procs
    ([.opened 0, .used 0] ++ r.1 ++ [.closed 0], r.2)

/-- elevation types -/
inductive Elev where
  | default | full | limited
deriving DecidableEq

structure LimEnv where
  cached : Bool
  /-- `OpenProcessToken` of the own process (101) -/
  canOpen : Bool
  /-- `GetElevationType` (107) -/
  elev : Option Elev
  /-- `GetLinkedToken` (121) -/
  linked : Bool
  other : Bool

/-- where a published limited token comes from -/
inductive Src where
  | own | linked
deriving DecidableEq

/-- `GetLimitedToken` (91-140).  Handle 0 is the token of the process, handle 1 the linked token. -/
def getLimited (e : LimEnv) : List Ev × Option (Nat × Src) :=
  if e.cached then ([], none)
  else if !e.canOpen then ([], none)
  else match e.elev with
    | none => ([.opened 0, .used 0, .closed 0], none)
    | some .limited => if e.other then ([.opened 0, .used 0, .closed 0], none) else ([.opened 0, .used 0], some (0, .own))
    | some .full =>
      if !e.linked then ([.opened 0, .used 0, .used 0, .closed 0], none)
      else if e.other then ([.opened 0, .used 0, .used 0, .opened 1, .closed 1, .closed 0], none)
      else ([.opened 0, .used 0, .used 0, .opened 1, .closed 0], some (1, .linked))
    | some .default => ([.opened 0, .used 0, .closed 0], none)

/-- `GetImpersonationSystemToken` (142-177); `sys`: the token `GetSystemToken` leaves in its static variable, `dup`: `DuplicateTokenEx` succeeds,
the duplicate has the number `n`. -/
def getImpersonation (cached : Bool) (sys : Option Nat) (dup other : Bool) (n : Nat) : List Ev × Option Nat :=
  if cached then ([], none)
  else match sys with
    | none => ([], none)
    | some t =>
      if !dup then ([.used t], none)
      else if other then ([.used t, .opened n, .closed n], none)
      else ([.used t, .opened n], some n)

end Verif.SysToken
