import Verif.Version.Model
import Verif.ErrCode.Model
/-!
# Model of `GetOperatingSystemVersion` (src/YY/Base/Utils/SystemInfo.cpp 15-52) and `GetFileVersion` (src/YY/Base/Utils/FileInfo.cpp 17-79)

Both are Windows only.  The operating system is an arbitrary environment.
-/
namespace Verif.FileVer
open Verif.Version Verif.ErrCode

/-! ## Version of the operating system -/

/-- the fields of the process environment block that are read (17-18, 22, 40) -/
structure Peb where
  /-- `OSMajorVersion`, `OSMinorVersion`: 32 bits -/
  major : BitVec 32
  minor : BitVec 32
  /-- `OSBuildNumber`, `OSCSDVersion`: 16 bits -/
  build : BitVec 16
  csd : BitVec 16

/-- `HIBYTE` -/
def hiByte (w : BitVec 16) : Nat := w.toNat / 256

/-- the two switches (20-49): the revision of the service pack -/
def revision (f : Fields) (sp : Nat) : BitVec 16 :=
  if pack f = pack ⟨5, 1, 2600, 0⟩ then
    match sp with
    | 0 => f.revision
    | 1 => 1106
    | 2 => 2180
    | _ => 5512
  else if pack f = pack ⟨5, 2, 3790, 0⟩ then
    match sp with
    | 0 => f.revision
    | _ => 1830
  else f.revision

/-- `GetOperatingSystemVersion` (15-52) -/
def osVersion (p : Peb) : BitVec 64 :=
  let f : Fields := ⟨p.major.truncate 16, p.minor.truncate 16, p.build, 0⟩
  pack { f with revision := revision f (hiByte p.csd) }

/-! ## Version of a file -/

/-- how a call inside the `__try` block ends: a result, an error with `GetLastError`, an in-page error (`EXCEPTION_IN_PAGE_ERROR` or `0xC000009C`), or
another structured exception, which the filter of line 75 lets pass -/
inductive Call (α : Type) where
  | ok (a : α)
  | err (code : Int)
  | inPage
  | raise

/-- reading one double word of the mapped file: `none` is an in-page error -/
abbrev Cell := Option (BitVec 32)

structure Env where
  /-- `FindResourceExW` (34) -/
  find : Call Unit
  /-- `LoadResource` (41) -/
  load : Call Unit
  /-- `GetOperatingSystemVersion` -/
  os : BitVec 64
  /-- `memcpy` of the resource to the stack (62) -/
  copy : Call Unit
  /-- `VerQueryValueW` (51, 64): the block found, with its `dwFileVersionMS` and `dwFileVersionLS`; `none` if the resource contains no
  `VS_FIXEDFILEINFO` – then the call succeeds with the length 0 and a null pointer -/
  query : Call (Option (Cell × Cell))

/-- how the function ends: it returns a code and leaves a value in `*_pVersion`, or the process fails (access through a null pointer or an
exception that nobody catches) -/
inductive Out where
  | ret (hr : Int) (v : BitVec 64)
  | crash
deriving DecidableEq

/-- the handler 76-78: `ERROR_DISK_OPERATION_FAILED` -/
def diskError : Int := fromStatus .win 1127

/-- lines 70-72.  The block may lie in the mapped file; a copy on the stack is the case without in-page errors. -/
def readInfo : Option (Cell × Cell) → Out
  | none => .crash
  | some (_, none) => .ret diskError 0
  | some (none, some ls) => .ret diskError (0#32 ++ ls)
  | some (some ms, some ls) => .ret 0 (ms ++ ls)

/-- lines 51-54, 64-72 -/
def queryInfo (e : Env) : Out :=
  match e.query with
  | .ok i => readInfo i
  | .err c => .ret (fromStatus .win c) 0
  | .inPage => .ret diskError 0
  | .raise => .crash

/-- lines 49-68 -/
def afterLoad (e : Env) : Out :=
  if (pack ⟨6, 0, 0, 0⟩).toNat ≤ e.os.toNat then queryInfo e
  else match e.copy with
    | .ok _ => queryInfo e
    | .err _ => queryInfo e
    | .inPage => .ret diskError 0
    | .raise => .crash

/-- `GetFileVersion(HMODULE, Version*)` (29-79) -/
def ofModule (e : Env) : Out :=
  match e.find with
  | .err c => .ret (fromStatus .win c) 0
  | .inPage => .ret diskError 0
  | .raise => .crash
  | .ok _ =>
    match e.load with
    | .err c => .ret (fromStatus .win c) 0
    | .inPage => .ret diskError 0
    | .raise => .crash
    | .ok _ => afterLoad e

/-- `GetFileVersion(LPCWSTR, Version*)` (17-27) with the number of loads and frees of the file; `lib`: the answer of `LoadLibraryExW` -/
def ofFile (lib : Except Int Unit) (e : Env) : Out × Nat × Nat :=
  match lib with
  | .error c => (.ret (fromStatus .win c) 0, 0, 0)
  | .ok _ =>
    match ofModule e with
    | .ret hr v => (.ret hr v, 1, 1)
    | .crash => (.crash, 1, 0)

end Verif.FileVer
