import Verif.View.Model

/-!
# Model of `IO::Path` (src/YY/Base/IO/Path.cpp)

Line numbers refer to that file.  A path is a view (`Verif.View`) of character units; `win` selects the code compiled on Windows, otherwise Linux
(macOS is the same as Linux here).  Every read `_sPath[i]` goes through `View.rd`; a read outside the memory of the view makes the result `none`.
The overloads that take a `uString` by value (316-324, 356-366, 383-391, 405-413, 427-435, 443-447) cut the string to the view that the
view overload returns, and are not modelled separately.
-/
namespace Verif.Path
open Verif.View

/-- a character unit -/
scoped notation "Ch" => Int
def ch (c : Char) : Ch := (c.toNat : Int)

/-- `IsDirectorySeparatorChar` (15-24); `kDirectorySeparatorChars` (Path.h 51, 60) -/
def sep (win : Bool) (c : Ch) : Bool := (win && decide (c = ch '\\')) || decide (c = ch '/')
/-- `uStringView(kDirectorySeparatorChars, std::size(kDirectorySeparatorChars))` -/
def seps (win : Bool) : View Ch := if win then ⟨[ch '\\', ch '/'], 0, 2⟩ else ⟨[ch '/'], 0, 1⟩
/-- `kDirectorySeparatorChar` (Path.h 47, 56) -/
def kSep (win : Bool) : Ch := if win then ch '\\' else ch '/'

/-- `IsAlphaChar` (26-29) -/
def alpha (c : Ch) : Bool := decide (ch 'A' ≤ c ∧ c ≤ ch 'Z') || decide (ch 'a' ≤ c ∧ c ≤ ch 'z')
/-- `IsHexDigit` (31-34) -/
def hex (c : Ch) : Bool := decide (ch '0' ≤ c ∧ c ≤ ch '9') || decide (ch 'A' ≤ c ∧ c ≤ ch 'F') || decide (ch 'a' ≤ c ∧ c ≤ ch 'f')

def is (a : Char) (c : Ch) : Bool := decide (c = ch a)
/-- `_sPath[i] == a || _sPath[i] == b` -/
def is2 (a b : Char) (c : Ch) : Bool := decide (c = ch a) || decide (c = ch b)

/-- `f0(_sPath[i]) && f1(_sPath[i + 1]) && …`, evaluated from the left -/
def chk (v : View Ch) : Nat → List (Ch → Bool) → Option Bool
  | _, [] => some true
  | i, f :: fs =>
    match v.rd i with
    | none => none
    | some c => if f c then chk v (i + 1) fs else some false

/-- `_sPath.GetLength() >= n && …` -/
def chkLen (v : View Ch) (fs : List (Ch → Bool)) : Option Bool := if v.len ≥ fs.length then chk v 0 fs else some false

/-- `TryParseUncPath` (36-68) -/
def tryUnc (win : Bool) (v : View Ch) : Option Nat := do
  if ← chkLen v [sep win, sep win] then
    if ← (if v.len ≥ 3 then (v.rd 2).map (is2 '?' '.') else some false) then
      if win then
        if ← (if v.len ≥ 8 then chk v 3 [sep win, is2 'U' 'u', is2 'N' 'n', is2 'C' 'c', sep win] else some false) then return 8
      return 0
    else return 2
  else return 0

/-- the conditions of 165-211 -/
def guidChecks : List (Ch → Bool) :=
  [sep true, sep true, is2 '?' '.', sep true, is2 'V' 'v', is2 'O' 'o', is2 'L' 'l', is2 'U' 'u', is2 'M' 'm', is2 'E' 'e', is '{',
   hex, hex, hex, hex, hex, hex, hex, hex, is '-', hex, hex, hex, hex, is '-', hex, hex, hex, hex, is '-', hex, hex, hex, hex, is '-',
   hex, hex, hex, hex, hex, hex, hex, hex, hex, hex, hex, hex, is '}']

/-- `TryParseVolumePath` (143-225), Windows only -/
def tryVol (v : View Ch) : Option Nat := do
  if ← chkLen v [alpha, is ':'] then return 2
  else if ← chkLen v [sep true, sep true, is2 '?' '.', sep true, alpha, is ':'] then return 6
  else if ← chkLen v guidChecks then
    if ← (if v.len = 48 then some true else (v.rd 48).map (sep true)) then return 48 else return 0
  else return 0

/-- the condition of 273, 463 and 490: one separator that is not followed by another -/
def oneSep (win : Bool) (v : View Ch) : Option Bool := do
  if ← (v.rd 0).map (sep win) then
    if v.len = 1 then return true
    else return !(← (v.rd 1).map (sep win))
  else return false

/-- the loop of 284-290 from index `i` with `skip` separators to go; the last argument is `GetLength() - i` -/
def skipLoop (win : Bool) (v : View Ch) : Nat → Nat → Nat → Option Nat
  | i, _, 0 => some i
  | i, 0, _ + 1 => some i
  | i, skip + 1, n + 1 =>
    match v.rd i with
    | none => none
    | some c => skipLoop win v (i + 1) (if sep win c then skip else skip + 1) n

def emptyView : View Ch := ⟨[], 0, 0⟩

/-- `GetPathRoot` (264-314) -/
def pathRoot (win : Bool) (v : View Ch) : Option (View Ch) := do
  if v.len = 0 then return emptyView
  if ← oneSep win v then return substring v 0 1
  let u ← tryUnc win v
  if u ≠ 0 then return substring v 0 (← skipLoop win v u 2 (v.len - u))
  if win then
    let r ← tryVol v
    if r ≠ 0 then
      if ← (if v.len > r then (v.rd r).map (sep win) else some false) then return substring v 0 (r + 1)
      else return substring v 0 r
  return emptyView

/-- `IsPathRooted` (326-329) -/
def isRooted (win : Bool) (v : View Ch) : Option Bool := (pathRoot win v).map fun r => decide (r.len ≠ 0)

/-- `RemoveFileSpec` (331-354): the returned value and the new view -/
def removeFileSpec (win : Bool) (v : View Ch) : Option (Bool × View Ch) := do
  if v.len = 0 then return (false, v)
  let r ← pathRoot win v
  if r.len = v.len then return (false, v)
  match ← lastIndexOfAnyIn v (seps win) r.len (W - 1) with
  | some k => return (true, substring v 0 k)
  | none => return (true, r)

/-- `GetFileName` (368-381) -/
def fileName (win : Bool) (v : View Ch) : Option (View Ch) := do
  if v.len = 0 then return emptyView
  let r ← pathRoot win v
  match ← lastIndexOfAnyIn v (seps win) r.len (W - 1) with
  | none => return v
  | some k => return substringFrom v (k + 1)

/-- `GetExtension` (393-403) -/
def extension (win : Bool) (v : View Ch) : Option (View Ch) := do
  let f ← fileName win v
  match ← lastIndexOf f (ch '.') with
  | some k => return substringFrom f k
  | none => return emptyView

/-- `GetFileNameWithoutExtension` (415-425) -/
def fileNameNoExt (win : Bool) (v : View Ch) : Option (View Ch) := do
  let f ← fileName win v
  match ← lastIndexOf f (ch '.') with
  | some k => return substringFrom f k
  | none => return f

/-- `GetDirectoryPath` (437-441) -/
def directory (win : Bool) (v : View Ch) : Option (View Ch) := (removeFileSpec win v).map Prod.snd

/-- `IsPathFullyQualified` (449-471) -/
def fullyQualified (win : Bool) (v : View Ch) : Option Bool := do
  if (← tryUnc win v) ≠ 0 then return true
  if win then
    let r ← tryVol v
    if r ≠ 0 then
      if r = v.len then return true else (v.rd r).map (sep win)
    else return false
  else oneSep win v

/-! ### Append and GetFullPath

The destination is a `uString`.  Its text is a list; `shared` says whether its storage has other owners.  `LockBuffer(n)` followed by
`UnlockBuffer()` keeps the text of a string that owns its storage and empties a string whose storage is shared (proved on the storage model,
`Verif.StrHeap.C09_lock_fails`); all other string operations used here have the effect on the text which their names say
(`Verif.StrHeap.C09_as_unshared_partial`).  Memory is always available; the appended view does not lie in the destination. -/

/-- `_szPath.LockBuffer(n); _szPath.UnlockBuffer();` (509-514) -/
def lockUnlock (shared : Bool) (p : List Ch) : List Ch := if shared then [] else p

/-- the loop of 497-500 from index `i`; the last argument is `GetLength() - i` -/
def skipSeps (win : Bool) (v : View Ch) : Nat → Nat → Option Nat
  | i, 0 => some i
  | i, n + 1 =>
    match v.rd i with
    | none => none
    | some c => if sep win c then skipSeps win v (i + 1) n else some i

/-- the text of a view, read unit by unit (`AppendString(ptr + i, n)`, `_szPath = _sPathAppend`) -/
def readFrom (v : View Ch) : Nat → Nat → Option (List Ch)
  | _, 0 => some []
  | i, n + 1 =>
    match v.rd i with
    | none => none
    | some c => (readFrom v (i + 1) n).map (c :: ·)

/-- `Append` (473-527): the new text of the path -/
def append (win shared : Bool) (p : List Ch) (q : View Ch) : Option (List Ch) := do
  if q.len = 0 then return p
  if (← tryUnc win q) ≠ 0 then readFrom q 0 q.len
  else if ← (if win then (tryVol q).map (fun r => decide (r ≠ 0)) else oneSep win q) then readFrom q 0 q.len
  else
    let k ← skipSeps win q 0 q.len
    if q.len - k = 0 then return p
    else
      let p := lockUnlock shared p
      let p := if p.length ≠ 0 ∧ (p.getLast?.map (sep win)) = some false then p ++ [kSep win] else p
      return p ++ (← readFrom q k (q.len - k))

/-- one of the two loops of `IsSameVolume` (240-243, 254-257): trailing separators are sliced away -/
def trimSeps (win : Bool) : Nat → View Ch → Option (View Ch)
  | 0, v => some v
  | fuel + 1, v =>
    if v.len = 0 then some v
    else
      match v.rd (v.len - 1) with
      | none => none
      | some c => if sep win c then trimSeps win fuel (slice v 0 1) else some v

/-- the prefix `\\?\` or `\\.\` is sliced away (230-238, 245-252) -/
def noDevice (win : Bool) (v : View Ch) : Option (View Ch) := do
  if ← chkLen v [sep win, sep win, is2 '?' '.', sep win] then return slice v 4 0 else return v

/-- `IsSameVolume` (228-262): the result of `CompareI` is converted to `bool`; units are 16-bit on Windows -/
def sameVolume (win : Bool) (l r : View Ch) : Option Bool := do
  let l ← noDevice win l
  let l ← trimSeps win l.len l
  let r ← noDevice win r
  let r ← trimSeps win r.len r
  if l.len ≠ r.len then return false
  return decide ((← compareView diffSmall upper l r) ≠ 0)

/-- a view of a whole string -/
def whole (t : List Ch) : View Ch := ⟨t, 0, t.length⟩

/-- `GetFullPath` (529-574) with the answer `cwd` of `GetCurrentDirectory`, whose storage is not shared -/
def fullPath (win : Bool) (cwd : List Ch) (v : View Ch) : Option (List Ch) := do
  if v.len = 0 then return []
  if ← fullyQualified win v then readFrom v 0 v.len
  else if cwd.length = 0 then return []
  else if win then
    let r ← tryVol v
    if r ≠ 0 then
      let croot ← pathRoot win (whole cwd)
      if croot.len = 0 then return []
      let vol := substring v 0 r
      let cwd ← if ← sameVolume win croot vol then some cwd else readFrom vol 0 vol.len
      append win false cwd (substringFrom v r)
    else if ← (v.rd 0).map (sep win) then
      let croot ← pathRoot win (whole cwd)
      let c ← readFrom croot 0 croot.len
      if c.length = 0 then return []
      append win false c v
    else append win false cwd v
  else append win false cwd v

end Verif.Path
