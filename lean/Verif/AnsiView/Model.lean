import Verif.View.Model

/-!
# Views of bytes with an encoding chosen at run time

Model of `StringView<achar_t, Encoding::ANSI>` (include/YY/Base/Strings/StringView.h 756-1475), which in contrast to the other views carries its encoding as a member (768).  The functions on the bytes are those of
`Verif.View` (the text of the two classes is the same apart from the encoding and the constructors); here they are given with what they do to the encoding.  Line numbers are of this file.

A null pointer is a view into an empty memory block: reading through it is undefined behaviour (`none`), like every read outside of a block.
-/
namespace Verif.AnsiView
open Verif.View

/-- the members (764-768) -/
structure AView where
  v : View Int
  /-- `eEncoding`: the number of the code page (include/YY/Base/Encoding.h 8-34), 0 for the default one -/
  enc : Nat
deriving DecidableEq

/-- a pointer: null, or to the position `off` of a block -/
abbrev Ptr := Option (List Int × Nat)

/-- the view of `n` units at a pointer -/
def window (p : Ptr) (n : Nat) : View Int :=
  match p with
  | none => ⟨[], 0, n⟩
  | some (mem, off) => ⟨mem, off, n⟩

/-- `StringView(_szSrc, _cchSrc, _eEncoding)` (778-783) -/
def make (p : Ptr) (n enc : Nat) : AView := ⟨window p n, enc⟩

/-- the same constructor of the other views (42-52): `_szSrc ? _cchSrc : 0` -/
def makeOther (p : Ptr) (n : Nat) : View Int := window p (if p.isSome then n else 0)

/-- `operator==` (853-859) -/
def equal (a b : AView) : Option Bool := View.eq a.v b.v

/-- `operator!=` (861-867) -/
def differ (a b : AView) : Option Bool := neView a.v b.v

/-- `Clear` (830-834): the encoding is kept -/
def clear (a : AView) : AView := ⟨window none 0, a.enc⟩

/-- `Slice` (1238-1252) -/
def slice (a : AView) (x y : Nat) : AView := ⟨View.slice a.v x y, a.enc⟩

/-- `Substring(start)` (1254-1264) -/
def substringFrom (a : AView) (i : Nat) : AView := ⟨View.substringFrom a.v i, a.enc⟩

/-- `Substring(start, length)` (1266-1276) -/
def substring (a : AView) (i n : Nat) : AView := ⟨View.substring a.v i n, a.enc⟩

/-- `TrimStart` (1278-1297), `TrimEnd` (1299-1316), `Trim` (1318-1323): they move the members -/
def trimStart (a s : AView) : Option AView := (View.trimStart a.v s.v).map (⟨·, a.enc⟩)
def trimEnd (a s : AView) : Option AView := (View.trimEnd a.v s.v).map (⟨·, a.enc⟩)
def trim (a s : AView) : Option AView := (trimStart a s).bind fun a => trimEnd a s

/-- `SplitAndTakeFirst(ch, index, &next)` (1332-1353), by `Substring` -/
def splitFirst (a : AView) (c : Int) (i : Nat) : Option (AView × Nat) :=
  match indexOfIn a.v c i (W - 1) with
  | none => none
  | some none => some (substringFrom a i, a.v.len)
  | some (some k) => some (substring a i (k - i), k + 1)

/-- `SplitAndTakeFirst(str, index, &next)` (1362-1383) -/
def splitFirstSeq (a s : AView) (i : Nat) : Option (AView × Nat) :=
  match indexOfSeqIn a.v s.v i (W - 1) with
  | none => none
  | some none => some (substringFrom a i, a.v.len)
  | some (some k) => some (substring a i (k - i), k + s.v.len)

/-- `SplitAndTakeFirst(ch, &remaining)` (1391-1401), `SplitAndTakeFirst(str, &remaining)` (1409-1418) -/
def splitRest (a : AView) (c : Int) : Option (AView × AView) := (splitFirst a c 0).map fun (p, n) => (p, substringFrom a n)
def splitRestSeq (a s : AView) : Option (AView × AView) := (splitFirstSeq a s 0).map fun (p, n) => (p, substringFrom a n)

/-- what user code can do with a view to get a part of it; `none` is undefined behaviour -/
inductive Op where
  | slice (x y : Nat)
  | from (i : Nat)
  | sub (i n : Nat)
  | trimStart (s : AView)
  | trimEnd (s : AView)
  | trim (s : AView)
  | split (c : Int) (i : Nat)
  | splitSeq (s : AView) (i : Nat)
  /-- the piece, or the rest -/
  | rest (c : Int) (first : Bool)
  | restSeq (s : AView) (first : Bool)
  | clear

def apply (a : AView) : Op → Option AView
  | .slice x y => some (slice a x y)
  | .from i => some (substringFrom a i)
  | .sub i n => some (substring a i n)
  | .trimStart s => trimStart a s
  | .trimEnd s => trimEnd a s
  | .trim s => trim a s
  | .split c i => (splitFirst a c i).map (·.1)
  | .splitSeq s i => (splitFirstSeq a s i).map (·.1)
  | .rest c first => (splitRest a c).map fun r => if first then r.1 else r.2
  | .restSeq s first => (splitRestSeq a s).map fun r => if first then r.1 else r.2
  | .clear => some (clear a)

/-- a chain of such operations -/
def applyAll (a : AView) : List Op → Option AView
  | [] => some a
  | o :: os => (apply a o).bind fun b => applyAll b os

end Verif.AnsiView
