import Verif.Utf.Ansi
/-!
# Model of the text passing through an `NString`

include/YY/Base/Strings/NString.h 572-602, 603-757, 870-895 with the overloads of `Transform` (StringTransform.h, StringTransform.cpp) that the calls select.

The units and the capacity of a String are the `Dst` of Verif/Utf/Model.lean; who owns the storage is the subject of `Verif.NStr` and `Verif.StrHeap`.
Not modelled: a null destination (`E_POINTER`), arguments inside the destination's own storage (C16).
-/
namespace Verif.NText
open Verif.Utf

/-- `Encoding` (Encoding.h 8-40): everything that is not one of the five Unicode forms is an ANSI code page -/
inductive Form where
  | u8 | u16LE | u16BE | u32LE | u32BE
  | ansi (cp : Nat)
deriving DecidableEq

/-- `StringBase::AppendString(const char_t*, size_t)` (String.h 450-476) of text from outside -/
def appendUnits (g : Grow) (src : List Nat) (d : Dst) : ARes :=
  if src = [] then .ok d
  else match lock g d (d.buf.length + src.length) with
    | none => .oom d
    | some d => if d.cap < d.buf.length + src.length then .ub else .ok { d with buf := d.buf ++ src }

/-- the overload of `Transform` for a source view of form `f` and a destination of form `e` (StringTransform.cpp 122-1775).
`u16LE` to `u32BE` (1014-1028) moves its temporary (`endianMove`). -/
def transform (n : Nls) (g : Grow) (f e : Form) (src : List Nat) (d : Dst) : ARes :=
  match f, e with
  | .ansi a, .ansi b => ansiToAnsi a b g src d
  | .u8, .ansi cp => u8toAnsi n g cp src d
  | .u16LE, .ansi cp => u16toAnsi n g cp src d
  | .u16BE, .ansi cp => u16BEtoAnsi n g cp src d
  | .u32LE, .ansi cp => u32LEtoAnsi n g cp src d
  | .u32BE, .ansi cp => u32BEtoAnsi n g cp src d
  | .ansi cp, .u8 => ansiTo8 n g cp src d
  | .ansi cp, .u16LE => ansiTo16 n g cp src d
  | .ansi cp, .u16BE => ansiTo16BE n g cp src d
  | .ansi cp, .u32LE => ansiTo32 n g cp src d
  | .ansi cp, .u32BE => ansiTo32BE n g cp src d
  | .u8, .u8 => appendUnits g src d
  | .u8, .u16LE => .of (u8to16LE g src d)
  | .u8, .u16BE => .of (u8to16BE g src d)
  | .u8, .u32LE => .of (u8to32LE g src d)
  | .u8, .u32BE => .of (u8to32BE g src d)
  | .u16LE, .u8 => .of (u16LEto8 g src d)
  | .u16LE, .u16LE => appendUnits g src d
  | .u16LE, .u16BE => .of (endian swap16 g src d)
  | .u16LE, .u32LE => .of (u16LEto32LE g src d)
  | .u16LE, .u32BE => if src = [] then .ok d else viaTmp (fun t => .of (u16LEto32LE g src t)) (fun t => endianMove swap32 g t d) d
  | .u16BE, .u8 => .of (u16BEto8 g src d)
  | .u16BE, .u16LE => .of (endian swap16 g src d)
  | .u16BE, .u16BE => appendUnits g src d
  | .u16BE, .u32LE => .of (u16BEto32LE g src d)
  | .u16BE, .u32BE => .of (u16BEto32BE g src d)
  | .u32LE, .u8 => .of (u32LEto8 g src d)
  | .u32LE, .u16LE => .of (u32LEto16LE g src d)
  | .u32LE, .u16BE => .of (u32LEto16BE g src d)
  | .u32LE, .u32LE => appendUnits g src d
  | .u32LE, .u32BE => .of (endian swap32 g src d)
  | .u32BE, .u8 => .of (u32BEto8 g src d)
  | .u32BE, .u16LE => .of (u32BEto16LE g src d)
  | .u32BE, .u16BE => .of (u32BEto16BE g src d)
  | .u32BE, .u32LE => .of (endian swap32 g src d)
  | .u32BE, .u32BE => appendUnits g src d

/-- an `NString`: its encoding and its units -/
structure NString where
  enc : Form
  text : Dst

/-- `AppendString` of a view of form `f` (572-602, 871-895) -/
def NString.append (n : Nls) (g : Grow) (s : NString) (f : Form) (src : List Nat) : ARes :=
  if src = [] then .ok s.text else transform n g f s.enc src s.text

/-- `GetString` (603-752) into a String of form `e` with units `d`: the form of the result and the result.  The destination is cleared; `cleared` is the capacity it has afterwards.
A String of the form of the source takes over the source's storage (`SetString(const StringBase&)`, 386-408), for ANSI whatever the code page (632); otherwise the text is converted. -/
def NString.get (n : Nls) (g : Grow) (s : NString) (e : Form) (cleared : Nat) : Form × ARes :=
  match s.enc, e with
  | .ansi a, .ansi _ => (.ansi a, .ok s.text)
  | f, e => if f = e then (e, .ok s.text) else (e, transform n g f e s.text.buf ⟨[], cleared⟩)

end Verif.NText
