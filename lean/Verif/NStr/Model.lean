/-
Model of `YY::Base::Strings::NString` (/repo/include/YY/Base/Strings/NString.h 15-896): a handle whose
storage block carries its own encoding, and which is a union of the six String classes.

Simplifications (see also DESIGN.md):
* a block has its text as a list of code units, so `uSize` is the length of the list; the terminator and
  the unspecified rest of the buffer are not kept (the String model `Verif.StrHeap` has them);
* `ro` marks the six static empty blocks (String.h 1160-1173), whose `iRef` is `INT32_MAX` in the code;
  reference counts of other blocks are natural numbers and do not reach `INT32_MAX`;
* `LockBuffer`/`UnlockBuffer` pairs inside one operation are one step, no handle is left locked;
* single threaded; `realloc` yields a new block (the model's addresses are never used twice, so a stale
  pointer is always visible); allocation number `n` fails when `fail n`;
* `size_t` is 64 bits wide and wraps in the two capacity formulas; elsewhere sizes do not wrap;
* the text conversion of the non-empty case is a parameter `conv` that gives the converted text or an
  error, and `room` the buffer size requested from the destination before it is written.
Access to a freed block, writing a static block and writing past the storage are the outcome `ub`.
-/

namespace Verif.NStr

/-- `Encoding` (Encoding.h 8-40).  `ansi 0` is `Encoding::ANSI`, `ansi n` any other ANSI code page. -/
inductive Enc where
  | ansi (codePage : Nat)
  | u8 | u16le | u16be | u32le | u32be
deriving DecidableEq, Repr

/-- `GetCharSize` (NString.h 802-816) -/
def width : Enc → Nat
  | .u16le => 2
  | .u16be => 2
  | .u32le => 4
  | .u32be => 4
  | _ => 1

/-- the class of the union member that has encoding `e`: every ANSI code page is `szANSI`
(NString.h 18-29) -/
def cls : Enc → Enc
  | .ansi _ => .ansi 0
  | e => e

/-- address of the static empty block of a class (`GetEmtpyStringData`, String.h 1160-1173) -/
def stat : Enc → Nat
  | .ansi _ => 0
  | .u8 => 1
  | .u16le => 2
  | .u16be => 3
  | .u32le => 4
  | .u32be => 5

/-- `StringData` (String.h 1063-1085) with the real size of its storage in bytes -/
structure Blk where
  ro : Bool
  iRef : Nat
  cap : Nat
  enc : Enc
  bytes : Nat
  text : List Nat
deriving DecidableEq, Repr

/-- `IsShared` (String.h 1224-1227), true of the static blocks -/
def Blk.shared (b : Blk) : Bool := b.ro || 1 < b.iRef

/-- `GetEmtpyStringData` of class `e` (String.h 1160-1173) -/
def emptyBlk (e : Enc) : Blk := ⟨true, 0, 0, cls e, width e, []⟩

structure St where
  blk : Nat → Option Blk
  next : Nat

def St.set (s : St) (a : Nat) (v : Option Blk) : St :=
  { s with blk := fun x => if x = a then v else s.blk x }

/-- the memory before the first operation -/
def St.init : St where
  blk a := match a with
    | 0 => some (emptyBlk (.ansi 0))
    | 1 => some (emptyBlk .u8)
    | 2 => some (emptyBlk .u16le)
    | 3 => some (emptyBlk .u16be)
    | 4 => some (emptyBlk .u32le)
    | 5 => some (emptyBlk .u32be)
    | _ => none
  next := 6

inductive Hr where
  | ok | oom | failed | invalidArg
deriving DecidableEq, Repr

/-- outcome of an operation of a handle: undefined behaviour, or a result code with the new memory and
the block the handle has now -/
inductive Res where
  | ub
  | ret (hr : Hr) (s : St) (p : Nat)

/-- `(n + 15) & ~15` (String.h 1121, 1141) -/
def round16 (n : Nat) : Nat := (n + 15) / 16 * 16

/-- `StringData::Release` (String.h 1196-1217) -/
def release (s : St) (a : Nat) : Option St :=
  match s.blk a with
  | none => none
  | some b =>
    if b.ro then some s
    else if b.iRef - 1 = 0 then some (s.set a none)
    else some (s.set a (some { b with iRef := b.iRef - 1 }))

/-- `StringData::AddRef` (String.h 1180-1194) -/
def addRef (s : St) (a : Nat) : Option St :=
  match s.blk a with
  | none => none
  | some b => if b.ro then some s else some (s.set a (some { b with iRef := b.iRef + 1 }))

/-- `Detach()->Release()` on the member of class `e` (String.h 1301-1306): the handle goes to the static
block of that class, the old block loses a reference -/
def detachRelease (s : St) (p : Nat) (e : Enc) : Res :=
  match release s p with
  | none => .ub
  | some s => .ret .ok s (stat e)

/-- the allocator fails: it may always, and must for more than `PTRDIFF_MAX` bytes -/
def oom (fail : Nat → Bool) (s : St) (bytes : Nat) : Bool := fail s.next || 2 ^ 63 ≤ bytes

/-- `AllocStringData` of class `e` for `n > 0` units (String.h 1134-1158) -/
def alloc (fail : Nat → Bool) (s : St) (e : Enc) (n : Nat) : St × Option Nat :=
  if oom fail s (round16 (n + 1) * width e) then ({ s with next := s.next + 1 }, none)
  else
    ({ blk := fun x => if x = s.next then
        some ⟨false, 1, round16 (n + 1) - 1, cls e, round16 (n + 1) * width e, []⟩ else s.blk x
       next := s.next + 1 }, some s.next)

/-- `Clear` of the member of class `e` (String.h 346-360) -/
def clearC (s : St) (p : Nat) (e : Enc) : Res :=
  match s.blk p with
  | none => .ub
  | some b =>
    if b.shared then detachRelease s p e
    else .ret .ok (s.set p (some { b with text := [] })) p

/-- a `LockBuffer(n)` of an empty string of class `e`, the writing of `t` at its start and
`UnlockBuffer(t.length)` (String.h 266-334).  A shared block is replaced by a new one of the class
(283-289, 1087-1106), a block that is too small is moved by `realloc` (300, 1108-1132), which keeps its
`eEncoding`.  The caller writes all of `t`; `bytes` bounds the writing.  (`LockBuffer(0)` of a block of
capacity 0 does not lock it, 273-278; `UnlockBuffer` then throws unless the block is static: `ub`.) -/
def fill (fail : Nat → Bool) (s : St) (p : Nat) (e : Enc) (n : Nat) (t : List Nat) : Res :=
  match s.blk p with
  | none => .ub
  | some b =>
    if n = 0 ∧ b.cap = 0 then
      if t = [] ∧ b.ro = true then .ret .ok s p else .ub
    else if b.shared then
      if n = 0 then
        match release s p with
        | none => .ub
        | some s => if t = [] then .ret .ok s (stat e) else .ub
      else
        match alloc fail s e n with
        | (s, none) => .ret .oom s p
        | (s, some q) =>
          match release s p with
          | none => .ub
          | some s =>
            match s.blk q with
            | none => .ub
            | some d =>
              if d.bytes < (t.length + 1) * width e then .ub
              else .ret .ok (s.set q (some { d with text := t })) q
    else if b.cap < n then
      let want := if b.cap + b.cap / 2 < n + 1 then n + 1 else b.cap + b.cap / 2
      if oom fail s (round16 want * width e) then .ret .oom { s with next := s.next + 1 } p
      else
        if round16 want * width e < (t.length + 1) * width e then .ub
        else
          .ret .ok
            { blk := fun x => if x = s.next then some { b with
                cap := round16 want - 1, bytes := round16 want * width e, text := t }
                else if x = p then none else s.blk x
              next := s.next + 1 } s.next
    else if b.bytes < (t.length + 1) * width e then .ub
    else .ret .ok (s.set p (some { b with text := t })) p

/-- `SetANSIEncoding(e)` on the ANSI member (String.h 511-538): `LockBuffer(1)`, the store to `eEncoding`
and `UnlockBuffer()`.  A shared block is replaced by a copy whose `uSize` stays 0 (1087-1106, 1153). -/
def setANSI (fail : Nat → Bool) (s : St) (p : Nat) (e : Enc) : Res :=
  match s.blk p with
  | none => .ub
  | some b =>
    if b.enc = e then .ret .ok s p
    else if e ≠ .u8 ∧ width e = 1 then
      if b.shared then
        match alloc fail s (.ansi 0) (max 1 b.text.length) with
        | (s, none) => .ret .oom s p
        | (s, some q) =>
          match release s p with
          | none => .ub
          | some s =>
            match s.blk q with
            | none => .ub
            | some d => .ret .ok (s.set q (some { d with enc := e })) q
      else if b.cap < 1 then
        -- the block grows by `realloc`
        if oom fail s 16 then .ret .oom { s with next := s.next + 1 } p
        else
          .ret .ok
            { blk := fun x => if x = s.next then some { b with
                cap := 15, bytes := 16, enc := e }
                else if x = p then none else s.blk x
              next := s.next + 1 } s.next
      else .ret .ok (s.set p (some { b with enc := e })) p
    else .ret .invalidArg s p

/-- `(uCapacity + 1) * OldCharSize / NewCharSize - 1` in `size_t` arithmetic (NString.h 182, 861) -/
def rescale (cap o n : Nat) : Nat :=
  ((((cap + 1) % 2 ^ 64 * o) % 2 ^ 64) / n + (2 ^ 64 - 1)) % 2 ^ 64

/-- the update of an exclusively owned block (NString.h 177-185 and 856-864) -/
def relabel (b : Blk) (old new : Enc) : Blk :=
  { b with
    cap := if width old ≠ width new then rescale b.cap (width old) (width new) else b.cap
    enc := new }

/-- `ClearAndUpdateEncoding` (NString.h 823-869).  In the shared case UTF32BE goes to the UTF16BE member
(843-845). -/
def caue (fail : Nat → Bool) (s : St) (p : Nat) (e : Enc) : Res :=
  match s.blk p with
  | none => .ub
  | some b =>
    if b.enc = e then .ret .ok s p
    else if b.shared then
      match e with
      | .u32be => detachRelease s p .u16be
      | .ansi c =>
        match detachRelease s p (.ansi 0) with
        | .ub => .ub
        | .ret _ s p => setANSI fail s p (.ansi c)
      | e => detachRelease s p e
    else if b.bytes < width e then .ub
    else .ret .ok (s.set p (some { relabel b b.enc e with text := [] })) p

/-- the handle goes back to the default of encoding `e` (NString.h 190-211) -/
def resetTo (fail : Nat → Bool) (s : St) (p : Nat) (e : Enc) : Res :=
  match e with
  | .ansi c =>
    match detachRelease s p (.ansi 0) with
    | .ub => .ub
    | .ret _ s p => setANSI fail s p (.ansi c)
  | e => detachRelease s p e

/-- `SetEncoding` after `ClearAndUpdateEncoding` has returned (NString.h 174-212): the handle has `p`, the
test and the updates still use the block `p0` it had before the call, read with encoding `old` -/
def stale (fail : Nat → Bool) (s : St) (p p0 : Nat) (old e : Enc) : Res :=
  match s.blk p0 with
  | none => .ub
  | some b =>
    if b.shared then resetTo fail s p e
    else .ret .ok (s.set p0 (some (relabel b old e))) p

/-- the conversions that are done by `TransformEndian(StringA&&, StringB*)`
(StringTransform.cpp 69-118): same width, other byte order -/
def endian : Enc → Enc → Bool
  | .u16le, .u16be => true
  | .u16be, .u16le => true
  | .u32le, .u32be => true
  | .u32be, .u32le => true
  | _, _ => false

/-- parameters of the conversion of non-empty text: the converted text (`none`: an error code) and the
buffer size asked for -/
structure Conv where
  conv : Enc → Enc → List Nat → Option (List Nat)
  room : Enc → Enc → List Nat → Nat
  /-- every conversion of a non-empty text asks for a buffer -/
  pos : ∀ o e t, t ≠ [] → 0 < room o e t

/-- `Transform(_szSrc, &szY)` into the empty member of class `e` (StringTransform.cpp 122-…): the
destination is grown, filled and its size set.  An error leaves the destination's text empty. -/
def transform (C : Conv) (fail : Nat → Bool) (s : St) (p : Nat) (old e : Enc) (t : List Nat) : Res :=
  match C.conv old e t with
  | none => .ret .failed s p
  | some u => fill fail s p e (max (C.room old e t) u.length) u

/-- `TransformEndian(StringA&&, StringB*)` with an empty destination `p` (StringTransform.cpp 75-100),
and the destruction of the moved-from source.  `LockBuffer` of the source gives an exclusively owned block
(cloned when it was shared), which is swapped, relabelled and attached to the destination; then
`Release()` drops the only reference (line 99). -/
def endianMove (C : Conv) (fail : Nat → Bool) (s : St) (src p : Nat) (old e : Enc) (t : List Nat) : Res :=
  if t = [] then
    match release s src with
    | none => .ub
    | some s => .ret .ok s p
  else
    match C.conv old e t with
    | none => .ret .failed s p
    | some u =>
      match fill fail s src old t.length u with
      | .ub => .ub
      | .ret .ok s q =>
        match s.blk q with
        | none => .ub
        | some b =>
          match release (s.set q (some { b with enc := e })) q with
          | none => .ub
          | some s => .ret .ok s q
      | .ret hr s q =>
        match release s q with
        | none => .ub
        | some s => .ret hr s p

/-- the conversions that go through a temporary in the other byte order, which is then given to
`TransformEndian(StringA&&, StringB*)` (StringTransform.cpp 315-329, 347-361, 1014-1028) -/
def viaMid : Enc → Enc → Option Enc
  | .ansi _, .u16be => some .u16le
  | .ansi _, .u32be => some .u32le
  | .u16le, .u32be => some .u32le
  | _, _ => none

/-- such a conversion with the temporary in encoding `mid` -/
def viaTmp (C : Conv) (fail : Nat → Bool) (s : St) (p : Nat) (old mid e : Enc) (t : List Nat) : Res :=
  match transform C fail s (stat mid) old mid t with
  | .ub => .ub
  | .ret .ok s q =>
    match s.blk q with
    | none => .ub
    | some b => endianMove C fail s q p mid e b.text
  | .ret hr s q =>
    match release s q with
    | none => .ub
    | some s => .ret hr s p

/-- the end of `SetEncoding`'s scope: `_szSrc` is destroyed -/
def dropSrc (src : Nat) : Res → Res
  | .ub => .ub
  | .ret hr s p =>
    match release s src with
    | none => .ub
    | some s => .ret hr s p

/-- the conversion to an ANSI code page (NString.h 239-246, 269-279, 304-309, 335-341, 366-371): the
cleared ANSI member gets a buffer of twice the source's size and the code page before the text -/
def toANSI (C : Conv) (fail : Nat → Bool) (s : St) (p : Nat) (old e : Enc) (t : List Nat) : Res :=
  match clearC s p (.ansi 0) with
  | .ub => .ub
  | .ret _ s p =>
    match fill fail s p (.ansi 0) (t.length * 2) [] with
    | .ub => .ub
    | .ret .ok s p =>
      match setANSI fail s p e with
      | .ub => .ub
      | .ret _ s p => transform C fail s p old e t
    | .ret hr s p => .ret hr s p

/-- code page to code page (NString.h 402-406): only the number is replaced -/
def ansiToAnsi (fail : Nat → Bool) (s : St) (src p : Nat) (e : Enc) : Res :=
  match setANSI fail s src e with
  | .ub => .ub
  | .ret .ok s q =>
    match release s p with
    | none => .ub
    | some s => .ret .ok s q
  | .ret hr s q =>
    match release s q with
    | none => .ub
    | some s => .ret hr s p

/-- the conversion of non-empty text (NString.h 215-409): `_szSrc` takes the block over and the handle is
left with the static block of the old class (219, 251, 283, 314, 345, 377) -/
def convert (C : Conv) (fail : Nat → Bool) (s : St) (p : Nat) (b : Blk) (e : Enc) : Res :=
  if endian b.enc e then endianMove C fail s p (stat b.enc) b.enc e b.text
  else
    match viaMid b.enc e with
    | some mid => dropSrc p (viaTmp C fail s (stat b.enc) b.enc mid e b.text)
    | none =>
      match b.enc, e with
      | .ansi _, .ansi c => ansiToAnsi fail s p (stat b.enc) (.ansi c)
      | _, .ansi c => dropSrc p (toANSI C fail s (stat b.enc) b.enc (.ansi c) b.text)
      | old, e => dropSrc p (transform C fail s (stat old) old e b.text)

/-- `SetEncoding` (NString.h 162-410) -/
def setEncoding (C : Conv) (fail : Nat → Bool) (s : St) (p : Nat) (e : Enc) : Res :=
  match s.blk p with
  | none => .ub
  | some b =>
    if b.enc = e then .ret .ok s p
    else if b.text = [] then
      match caue fail s p e with
      | .ub => .ub
      | .ret _ s q => stale fail s q p b.enc e
    else convert C fail s p b e

/-- `SetString` of a member of class `e` from outside memory (String.h 362-384) -/
def put (fail : Nat → Bool) (s : St) (p : Nat) (e : Enc) (t : List Nat) : Res :=
  match clearC s p e with
  | .ub => .ub
  | .ret _ s p => if t = [] then .ret .ok s p else fill fail s p e t.length t

/-- `SetString` of a view in encoding `e` with text `t` (NString.h 412-422, 436-441, 455-481, 507-533,
559-571): the ANSI form keeps any ANSI code page until the text is in (414, 421) -/
def setString (fail : Nat → Bool) (s : St) (p : Nat) (e : Enc) (t : List Nat) : Res :=
  match s.blk p with
  | none => .ub
  | some b =>
    match e with
    | .ansi c =>
      let pre : Res := if cls b.enc = .ansi 0 then .ret .ok s p else caue fail s p (.ansi 0)
      match pre with
      | .ub => .ub
      | .ret _ s p =>
        match put fail s p (.ansi c) t with
        | .ub => .ub
        | .ret .ok s p => setANSI fail s p (.ansi c)
        | .ret hr s p => .ret hr s p
    | e =>
      match caue fail s p e with
      | .ub => .ub
      | .ret _ s p => put fail s p e t

/-- `SetString(const StringBase&)` of a String that is not locked (String.h 391-409): the handle of block `p` gets block `q` -/
def assign (s : St) (p q : Nat) : Res :=
  if p = q then .ret .ok s p
  else
    match addRef s q with
    | none => .ub
    | some s =>
      match release s p with
      | none => .ub
      | some s => .ret .ok s q

/-- `SetString` of a String object whose block is `q` (NString.h 423-429, 443-448, 483-488, 495-500, 535-540, 547-552).  The class of the
String selects the overload; it is that of the encoding of its block. -/
def setCopy (fail : Nat → Bool) (s : St) (p q : Nat) : Res :=
  match s.blk p, s.blk q with
  | some b, some x =>
    let pre : Res := if cls x.enc = .ansi 0 then
        if cls b.enc = .ansi 0 then .ret .ok s p else caue fail s p (.ansi 0)
      else caue fail s p x.enc
    match pre with
    | .ub => .ub
    | .ret _ s p => assign s p q
  | _, _ => .ub

/-- `SetString` of a String object that is moved (NString.h 431-434, 450-453, 490-493, 502-505, 542-545, 554-557 with String.h 411-425): the memory, the
block of the NString and that of the String -/
def setMove (s : St) (p q : Nat) : Option (St × Nat × Nat) :=
  if p = q then some (s, p, q)
  else
    match s.blk q with
    | none => none
    | some x => (release s p).map fun s => (s, q, stat x.enc)

/-- `Clear` (NString.h 759-792) -/
def clear (fail : Nat → Bool) (s : St) (p : Nat) : Res :=
  match s.blk p with
  | none => .ub
  | some b =>
    if b.text = [] then .ret .ok s p
    else
      match b.enc with
      | .ansi c =>
        match clearC s p (.ansi 0) with
        | .ub => .ub
        | .ret _ s p => if c = 0 then .ret .ok s p else
          match setANSI fail s p (.ansi c) with
          | .ub => .ub
          | .ret _ s p => .ret .ok s p
      | e => clearC s p e

/-- the handles: each is the address of its block -/
structure World where
  st : St
  hs : List Nat

inductive Op where
  /-- a new NString from a view (NString.h 34-150), a fresh handle -/
  | new (e : Enc) (t : List Nat)
  /-- another String or NString that shares the block of handle `i` (NString.h 39-150,
  String.h 202-223) -/
  | share (i : Nat)
  /-- destructor (NString.h 152-155) -/
  | del (i : Nat)
  | setEncoding (i : Nat) (e : Enc)
  | setString (i : Nat) (e : Enc) (t : List Nat)
  | clear (i : Nat)
  /-- `SetString` of NString `i` from the String object `j` -/
  | setCopy (i j : Nat)
  | setMove (i j : Nat)

/-- run a member function on handle `i` -/
def onHandle (w : World) (i : Nat) (f : St → Nat → Res) : Option World :=
  match w.hs[i]? with
  | none => none
  | some p =>
    match f w.st p with
    | .ub => none
    | .ret _ s q => some ⟨s, w.hs.set i q⟩

/-- one operation; `none` is undefined behaviour or an operation on a handle that does not exist -/
def step (C : Conv) (fail : Nat → Bool) (w : World) : Op → Option World
  | .new e t =>
    match setString fail w.st (stat e) e t with
    | .ub => none
    | .ret _ s q => some ⟨s, w.hs ++ [q]⟩
  | .share i =>
    match w.hs[i]? with
    | none => none
    | some p =>
      match addRef w.st p with
      | none => none
      | some s => some ⟨s, w.hs ++ [p]⟩
  | .del i =>
    match w.hs[i]? with
    | none => none
    | some p =>
      match release w.st p with
      | none => none
      | some s => some ⟨s, w.hs.eraseIdx i⟩
  | .setEncoding i e => onHandle w i (fun s p => setEncoding C fail s p e)
  | .setString i e t => onHandle w i (fun s p => setString fail s p e t)
  | .clear i => onHandle w i (fun s p => clear fail s p)
  | .setCopy i j =>
    match w.hs[j]? with
    | none => none
    | some q => onHandle w i (fun s p => setCopy fail s p q)
  | .setMove i j =>
    match w.hs[i]?, w.hs[j]? with
    | some p, some q => (setMove w.st p q).map fun (s, p', q') => ⟨s, (w.hs.set j q').set i p'⟩
    | _, _ => none

/-- encoding and text of handle `i`: `GetEncoding` (NString.h 157-160) and the `GetString` of that
encoding (603-752) -/
def view (w : World) (i : Nat) : Option (Enc × List Nat) :=
  match w.hs[i]? with
  | none => none
  | some p => (w.st.blk p).map fun b => (b.enc, b.text)

end Verif.NStr
