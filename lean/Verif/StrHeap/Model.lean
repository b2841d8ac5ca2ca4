/-
Model of the copy-on-write storage of `YY::Base::Strings::StringBase`
(/repo/include/YY/Base/Strings/String.h 141-1307) as a heap of storage blocks and a list of
String handles pointing into it.

Simplifications (see also DESIGN.md):
* one instantiation of the template at a time: `cls` is `_eEncoding`, characters are `Nat`;
* `size_t` arithmetic on sizes and capacities does not wrap (`Nat`);
* single threaded: the interlocked `iRef` updates are plain updates;
* `malloc`/`realloc` are an oracle: every operation that may allocate receives the allocator's answer
  `Al` (failure, or an address together with the unspecified contents of the new memory);
* address 0 stands for the static read-only `g_EmptyStringData` (String.h 1160-1173).
Reading or writing freed memory, writing the static block, writing past the buffer, freeing twice and
overlapping `memcpy` are the outcome `ub`.
-/

namespace Verif.StrHeap

/-- `Encoding::ANSI` (Encoding.h 11) -/
def ansi : Nat := 0

/-- the five Unicode encodings refused by `SetANSIEncoding` (String.h 523, Encoding.h 15-28) -/
def isUnicode (e : Nat) : Bool := e == 65001 || e == 1200 || e == 1201 || e == 12000 || e == 12001

/-- `numeric_limits<int32_t>::max()` (String.h 1170, 1221) -/
def imax : Int := 2147483647

/-- `StringData` with its buffer of `cap + 1` characters (String.h 1063-1085).  `fMarks` is unused. -/
structure SD where
  iRef : Int
  cap : Nat
  size : Nat
  enc : Nat
  buf : Nat → Nat

/-- the text of a block: `GetStringView` (String.h 540-544) reads `uSize` characters -/
def SD.text (d : SD) : List Nat := (List.range d.size).map d.buf

abbrev Mem := Nat → Option SD

def upd (m : Mem) (a : Nat) (v : Option SD) : Mem := fun b => if b = a then v else m b

/-- `GetEmtpyStringData` (String.h 1160-1173) -/
def emptySD (cls : Nat) : SD := ⟨imax, 0, 0, cls, fun _ => 0⟩

/-- the allocator's answer: `none` is failure, otherwise the address and the unspecified contents -/
abbrev Al := Option (Nat × (Nat → Nat))

inductive Hr where
  | ok | oom | invalidArg | bounds | noInterface
deriving DecidableEq, Repr

/-- outcome of a member function of one handle whose `szString` points to block `p`: undefined
behaviour, an exception (with the state left behind) or a result code -/
inductive Res where
  | ub
  | thr (m : Mem) (p : Nat)
  | ret (hr : Hr) (m : Mem) (p : Nat)

/-- `IsReadOnly` (String.h 1219-1222) -/
def SD.isReadOnly (d : SD) : Prop := d.iRef = imax
/-- `IsShared` (String.h 1224-1227); also true of the static empty block -/
def SD.isShared (d : SD) : Prop := 1 < d.iRef
/-- `IsLocked` (String.h 1265-1268) -/
def SD.isLocked (d : SD) : Prop := d.iRef < 0

instance (d : SD) : Decidable d.isReadOnly := inferInstanceAs (Decidable (d.iRef = imax))
instance (d : SD) : Decidable d.isShared := inferInstanceAs (Decidable (1 < d.iRef))
instance (d : SD) : Decidable d.isLocked := inferInstanceAs (Decidable (d.iRef < 0))

/-- `(n + 15) & ~15` (String.h 1122, 1141) -/
def round16 (n : Nat) : Nat := (n + 15) / 16 * 16

/-- `StringData::AddRef` (String.h 1180-1194): `none` is undefined behaviour (dead block), the inner
`none` the exception for a locked block -/
def addRef (m : Mem) (a : Nat) : Option (Option Mem) :=
  match m a with
  | none => none
  | some d =>
    if d.isReadOnly then some (some m)
    else if d.iRef < 0 then some none
    else some (some (upd m a (some { d with iRef := d.iRef + 1 })))

/-- `StringData::Release` (String.h 1196-1217); `none` is undefined behaviour (block already freed) -/
def release (m : Mem) (a : Nat) : Option Mem :=
  match m a with
  | none => none
  | some d =>
    if d.isReadOnly then some m
    else if d.iRef < 0 then some (upd m a none)
    else if d.iRef - 1 = 0 then some (upd m a none)
    else some (upd m a (some { d with iRef := d.iRef - 1 }))

/-- `StringData::AllocStringData` (String.h 1134-1158); `none` is out of memory -/
def allocData (cls : Nat) (m : Mem) (n : Nat) (al : Al) : Option (Mem × Nat) :=
  if n = 0 then some (m, 0)
  else
    match al with
    | none => none
    | some (q, junk) =>
      some (upd m q (some ⟨1, round16 (n + 1) - 1, 0, cls, fun k => if k = 0 then 0 else junk k⟩), q)

/-- `CloneStringData` of block contents `d` (String.h 1087-1106).  `uSize` and `eEncoding` of the new
block stay as `AllocStringData` left them. -/
def cloneData (cls : Nat) (m : Mem) (d : SD) (n : Nat) (al : Al) : Option (Mem × Nat) :=
  let n := if n < d.size then d.size else n
  if n = 0 then some (m, 0)
  else
    match allocData cls m n al with
    | none => none
    | some (m1, q) =>
      match m1 q with
      | none => none
      | some e =>
        some (upd m1 q (some { e with
          buf := fun k => if k = d.size then 0 else if k < d.size then d.buf k else e.buf k }), q)

/-- `ReallocStringData` of the exclusively owned block `p` (String.h 1108-1132): the old block is freed
and its contents move to the address `q` (which may be `p` itself) -/
def reallocData (m : Mem) (p : Nat) (d : SD) (n : Nat) (al : Al) : Option (Mem × Nat) :=
  if n ≤ d.cap then some (m, p)
  else
    let want := if d.cap + d.cap / 2 < n + 1 then n + 1 else d.cap + d.cap / 2
    match al with
    | none => none
    | some (q, junk) =>
      some (upd (upd m p none) q (some { d with
        cap := round16 want - 1
        buf := fun k => if k ≤ d.cap then d.buf k else junk k }), q)

/-- `StringData::Lock` at the end of `LockBuffer` (String.h 307-308, 1229-1245) -/
def doLock (m : Mem) (p : Nat) : Res :=
  match m p with
  | none => .ub
  | some d =>
    if d.isReadOnly then .ret .ok m p
    else if 1 < d.iRef ∨ d.iRef = 0 then .thr m p
    else .ret .ok (upd m p (some { d with iRef := if d.iRef = 1 then -1 else d.iRef - 1 })) p

/-- `StringData::Unlock` (String.h 1247-1263) on a block known not to be read-only -/
def doUnlock (m : Mem) (p : Nat) : Res :=
  match m p with
  | none => .ub
  | some d =>
    if 0 ≤ d.iRef then .thr m p
    else .ret .ok (upd m p (some { d with iRef := if d.iRef = -1 then 1 else d.iRef + 1 })) p

/-- `LockBuffer` (String.h 266-311).  `ret oom` is the null result, `ret ok` a pointer to the buffer of
the block the handle now has. -/
def lockBuffer (cls : Nat) (m : Mem) (p cap : Nat) (al : Al) : Res :=
  match m p with
  | none => .ub
  | some d =>
    let cap := if cap < d.size then d.size else cap
    if cap = 0 ∧ d.cap = 0 then .ret .ok m p
    else if d.isShared then
      match cloneData cls m d cap al with
      | none => .ret .oom m p
      | some (m1, q) =>
        match release m1 p with
        | none => .ub
        | some m2 => doLock m2 q
    else if d.cap < cap then
      if d.isLocked then .thr m p
      else
        match reallocData m p d cap al with
        | none => .ret .oom m p
        | some (m1, q) => doLock m1 q
    else doLock m p

/-- writing one character of the buffer of block `p` -/
def wr (m : Mem) (p k c : Nat) : Option Mem :=
  match m p with
  | none => none
  | some d =>
    if p = 0 then none
    else if d.cap < k then none
    else some (upd m p (some { d with buf := fun x => if x = k then c else d.buf x }))

/-- `UnlockBuffer(_uNewSize)` (String.h 313-334); the `assert` is taken as compiled out -/
def unlockN (m : Mem) (p n : Nat) : Res :=
  match m p with
  | none => .ub
  | some d =>
    if d.isReadOnly then .ret .ok m p
    else if ¬ d.isLocked then .thr m p
    else
      let n := if d.cap < n then d.cap else n
      match wr (upd m p (some { d with size := n })) p n 0 with
      | none => .ub
      | some m1 => doUnlock m1 p

/-- `UnlockBuffer()` (String.h 336-344) -/
def unlock (m : Mem) (p : Nat) : Res :=
  match m p with
  | none => .ub
  | some d => if d.isReadOnly then .ret .ok m p else doUnlock m p

/-- `Clear` (String.h 346-360) -/
def clear (m : Mem) (p : Nat) : Res :=
  match m p with
  | none => .ub
  | some d =>
    if d.isShared then
      match release m p with
      | none => .ub
      | some m1 => .ret .ok m1 0
    else
      match wr m p 0 0 with
      | none => .ub
      | some m1 =>
        match m1 p with
        | none => .ub
        | some e => .ret .ok (upd m1 p (some { e with size := 0 })) p

/-- a source pointer with a length: memory outside every String, or a range of the buffer of block `a` -/
inductive Ptr where
  | ext (l : List Nat)
  | inn (a off n : Nat)

def Ptr.len : Ptr → Nat
  | .ext l => l.length
  | .inn _ _ n => n

/-- `memcpy(buffer(p) + off, src, len)` (String.h 379, 464); overlapping ranges are undefined -/
def copyIn (m : Mem) (p off : Nat) (src : Ptr) : Option Mem :=
  match m p with
  | none => none
  | some d =>
    if p = 0 then none
    else
      match src with
      | .ext l =>
        if d.cap + 1 < off + l.length then none
        else some (upd m p (some { d with
          buf := fun k => if off ≤ k ∧ k < off + l.length then l.getD (k - off) 0 else d.buf k }))
      | .inn a o n =>
        match m a with
        | none => none
        | some e =>
          if d.cap + 1 < off + n ∨ e.cap + 1 < o + n then none
          else if a = p ∧ ¬ (o + n ≤ off ∨ off + n ≤ o) then none
          else some (upd m p (some { d with
            buf := fun k => if off ≤ k ∧ k < off + n then e.buf (o + (k - off)) else d.buf k }))

/-- `SetString(_szSrc, _cchSrc)` with a non-null source (String.h 362-384).  The `E_INVALIDARG` case is
`setNull`. -/
def setStr (cls : Nat) (m : Mem) (p : Nat) (src : Ptr) (al : Al) : Res :=
  match clear m p with
  | .ub => .ub
  | .thr m p => .thr m p
  | .ret _ m p =>
    if src.len = 0 then .ret .ok m p
    else
      match lockBuffer cls m p src.len al with
      | .ub => .ub
      | .thr m p => .thr m p
      | .ret .ok m p =>
        match copyIn m p 0 src with
        | none => .ub
        | some m => unlockN m p src.len
      | .ret _ m p => .ret .oom m p

/-- `AppendString(_szSrc, _cchSrc)` with a non-null source (String.h 450-468) -/
def append (cls : Nat) (m : Mem) (p : Nat) (src : Ptr) (al : Al) : Res :=
  if src.len = 0 then .ret .ok m p
  else
    match m p with
    | none => .ub
    | some d =>
      match lockBuffer cls m p (d.size + src.len) al with
      | .ub => .ub
      | .thr m p => .thr m p
      | .ret .ok m p =>
        match copyIn m p d.size src with
        | none => .ub
        | some m => unlockN m p (d.size + src.len)
      | .ret _ m p => .ret .oom m p

/-- `AppendChar` (String.h 490-504) -/
def appendChar (cls : Nat) (m : Mem) (p c : Nat) (al : Al) : Res :=
  match m p with
  | none => .ub
  | some d =>
    match lockBuffer cls m p (d.size + 1) al with
    | .ub => .ub
    | .thr m p => .thr m p
    | .ret .ok m p =>
      match wr m p d.size c with
      | none => .ub
      | some m => unlockN m p (d.size + 1)
    | .ret _ m p => .ret .oom m p

/-- `SetItem` (String.h 427-443): ends with the `UnlockBuffer()` that leaves `uSize` alone -/
def setItem (cls : Nat) (m : Mem) (p k c : Nat) (al : Al) : Res :=
  match m p with
  | none => .ub
  | some d =>
    if d.size ≤ k then .ret .bounds m p
    else
      match lockBuffer cls m p 0 al with
      | .ub => .ub
      | .thr m p => .thr m p
      | .ret .ok m p =>
        match wr m p k c with
        | none => .ub
        | some m => unlock m p
      | .ret _ m p => .ret .oom m p

/-- `SetANSIEncoding` (String.h 511-538) -/
def setEnc (cls : Nat) (m : Mem) (p e : Nat) (al : Al) : Res :=
  match m p with
  | none => .ub
  | some d =>
    if (if cls ≠ ansi then cls else d.enc) = e then .ret .ok m p
    else if cls ≠ ansi then .ret .noInterface m p
    else if isUnicode e then .ret .invalidArg m p
    else
      match lockBuffer cls m p 1 al with
      | .ub => .ub
      | .thr m p => .thr m p
      | .ret .ok m p =>
        match m p with
        | none => .ub
        | some d => if p = 0 then .ub else unlock (upd m p (some { d with enc := e })) p
      | .ret _ m p => .ret .oom m p

/-- `memmove` inside the buffer of block `p`: `n` characters from offset `o` to offset `off` -/
def moveIn (m : Mem) (p off o n : Nat) : Option Mem :=
  match m p with
  | none => none
  | some d =>
    if p = 0 then none
    else if d.cap + 1 < off + n ∨ d.cap + 1 < o + n then none
    else some (upd m p (some { d with
      buf := fun k => if off ≤ k ∧ k < off + n then d.buf (o + (k - off)) else d.buf k }))

/-- `Remove` (String.h 806-851).  In the shared branch the result of `LockBuffer` is not checked, so
running out of memory there writes through a null pointer. -/
def remove (cls : Nat) (m : Mem) (p start count : Nat) (al : Al) : Res :=
  match m p with
  | none => .ub
  | some d =>
    if d.size ≤ start then .ret .ok m p
    else
      let count := min count (d.size - start)
      if count = 0 then .ret .ok m p
      else
        let newSize := d.size - count
        if newSize = 0 then clear m p
        else if d.isShared then
          match lockBuffer cls m 0 newSize al with
          | .ret .ok m1 q =>
            match copyIn m1 q 0 (.inn p 0 start) with
            | none => .ub
            | some m2 =>
              match copyIn m2 q start (.inn p (start + count) (newSize - start)) with
              | none => .ub
              | some m3 =>
                match unlockN m3 q newSize with
                | .ret _ m4 q =>
                  match (if cls = ansi then setEnc cls m4 q d.enc al else .ret .ok m4 q) with
                  | .ret _ m5 q =>
                    match release m5 p with
                    | none => .ub
                    | some m6 => .ret .ok m6 q
                  | _ => .ub
                | _ => .ub
          | _ => .ub
        else
          match lockBuffer cls m p newSize al with
          | .ub => .ub
          | .thr m p => .thr m p
          | .ret .ok m p =>
            match moveIn m p start (start + count) (newSize - start) with
            | none => .ub
            | some m => unlockN m p newSize
          | .ret _ _ _ => .ub

/-- `SetString(const StringBase&)` from the handle whose block is `a` (String.h 391-409) -/
def assign (cls : Nat) (m : Mem) (p a : Nat) (al : Al) : Res :=
  if p = a then .ret .ok m p
  else
    match m a with
    | none => .ub
    | some e =>
      if e.isLocked then setStr cls m p (.inn a 0 e.size) al
      else
        match addRef m a with
        | none => .ub
        | some none => .thr m p
        | some (some m1) =>
          match release m1 p with
          | none => .ub
          | some m2 => .ret .ok m2 a

/-- `AppendString(const StringBase&)` from the handle whose block is `a` (String.h 475-488) -/
def appendS (cls : Nat) (m : Mem) (p a : Nat) (al : Al) : Res :=
  match m a, m p with
  | some e, some d =>
    if e.size = 0 then .ret .ok m p
    else if d.size = 0 then assign cls m p a al
    else append cls m p (.inn a 0 e.size) al
  | _, _ => .ub

/-- a character store through the pointer `LockBuffer` returned -/
def write (m : Mem) (p k c : Nat) : Res :=
  match wr m p k c with
  | none => .ub
  | some m => .ret .ok m p

/-- the program state: the heap and the String objects of the program (`none` once destroyed) -/
structure St where
  mem : Mem
  hs : List (Option Nat)

def init (cls : Nat) : St := ⟨fun a => if a = 0 then some (emptySD cls) else none, []⟩

/-- a source argument: external memory, or `n` characters at offset `off` of the text of handle `h` -/
inductive Src where
  | ext (l : List Nat)
  | of (h off n : Nat)

inductive Op where
  | new
  | copy (j : Nat) (al : Al)
  | move (j : Nat)
  | del (i : Nat)
  | clear (i : Nat)
  | setStr (i : Nat) (s : Src) (al : Al)
  | setNull (i : Nat)
  | assign (i j : Nat) (al : Al)
  | moveAssign (i j : Nat)
  | append (i : Nat) (s : Src) (al : Al)
  | appendS (i j : Nat) (al : Al)
  | appendChar (i c : Nat) (al : Al)
  | setItem (i k c : Nat) (al : Al)
  | setEnc (i e : Nat) (al : Al)
  | remove (i start count : Nat) (al : Al)
  | lock (i cap : Nat) (al : Al)
  | write (i k c : Nat)
  | unlockN (i n : Nat)
  | unlock (i : Nat)

inductive Out where
  | ub
  | thr (s : St)
  | ret (hr : Hr) (s : St)

/-- run a member function on handle `i` -/
def onHandle (s : St) (i : Nat) (f : Mem → Nat → Res) : Out :=
  match s.hs[i]? with
  | some (some p) =>
    match f s.mem p with
    | .ub => .ub
    | .thr m p => .thr ⟨m, s.hs.set i (some p)⟩
    | .ret hr m p => .ret hr ⟨m, s.hs.set i (some p)⟩
  | _ => .ub

/-- the pointer a source argument evaluates to -/
def ptrOf (s : St) : Src → Option Ptr
  | .ext l => some (.ext l)
  | .of h off n =>
    match s.hs[h]? with
    | some (some a) => some (.inn a off n)
    | _ => none

def onHandleP (s : St) (i : Nat) (src : Src) (f : Mem → Nat → Ptr → Res) : Out :=
  match ptrOf s src with
  | none => .ub
  | some q => onHandle s i (fun m p => f m p q)

def onHandle2 (s : St) (i j : Nat) (f : Mem → Nat → Nat → Res) : Out :=
  match s.hs[j]? with
  | some (some a) => onHandle s i (fun m p => f m p a)
  | _ => .ub

def step (cls : Nat) (s : St) : Op → Out
  -- String.h 170-173
  | .new => .ret .ok ⟨s.mem, s.hs ++ [some 0]⟩
  -- String.h 207-223; when the deep copy of a locked source fails the constructor throws and no object exists
  | .copy j al =>
    match s.hs[j]? with
    | some (some a) =>
      match s.mem a with
      | none => .ub
      | some e =>
        if e.isLocked then
          match setStr cls s.mem 0 (.inn a 0 e.size) al with
          | .ret .ok m p => .ret .ok ⟨m, s.hs ++ [some p]⟩
          | .ret _ m _ => .thr ⟨m, s.hs⟩
          | .thr m _ => .thr ⟨m, s.hs⟩
          | .ub => .ub
        else
          match addRef s.mem a with
          | none => .ub
          | some none => .thr s
          | some (some m) => .ret .ok ⟨m, s.hs ++ [some a]⟩
    | _ => .ub
  -- String.h 225-229
  | .move j =>
    match s.hs[j]? with
    | some (some a) => .ret .ok ⟨s.mem, s.hs.set j (some 0) ++ [some a]⟩
    | _ => .ub
  -- String.h 231-234
  | .del i =>
    match s.hs[i]? with
    | some (some p) =>
      match release s.mem p with
      | none => .ub
      | some m => .ret .ok ⟨m, s.hs.set i none⟩
    | _ => .ub
  | .clear i => onHandle s i clear
  | .setStr i src al => onHandleP s i src (fun m p q => setStr cls m p q al)
  -- String.h 364-367
  | .setNull i => onHandle s i (fun m p => .ret .invalidArg m p)
  | .assign i j al => onHandle2 s i j (fun m p a => assign cls m p a al)
  -- String.h 411-425, 1290-1306
  | .moveAssign i j =>
    match s.hs[i]?, s.hs[j]? with
    | some (some p), some (some a) =>
      if p = a then .ret .ok s
      else
        match s.mem a with
        | none => .ub
        | some e =>
          if e.isLocked then .thr s
          else
            match release s.mem p with
            | none => .ub
            | some m => .ret .ok ⟨m, (s.hs.set j (some 0)).set i (some a)⟩
    | _, _ => .ub
  | .append i src al => onHandleP s i src (fun m p q => append cls m p q al)
  | .appendS i j al => onHandle2 s i j (fun m p a => appendS cls m p a al)
  | .appendChar i c al => onHandle s i (fun m p => appendChar cls m p c al)
  | .setItem i k c al => onHandle s i (fun m p => setItem cls m p k c al)
  | .setEnc i e al => onHandle s i (fun m p => setEnc cls m p e al)
  | .remove i a n al => onHandle s i (fun m p => remove cls m p a n al)
  | .lock i cap al => onHandle s i (fun m p => lockBuffer cls m p cap al)
  | .write i k c => onHandle s i (fun m p => write m p k c)
  | .unlockN i n => onHandle s i (fun m p => unlockN m p n)
  | .unlock i => onHandle s i unlock

/-- byte-swap the first `n` characters of the buffer of block `p` -/
def swapIn (f : Nat → Nat) (m : Mem) (p n : Nat) : Option Mem :=
  match m p with
  | none => none
  | some d =>
    if p = 0 then none
    else if d.cap + 1 < n then none
    else some (upd m p (some { d with buf := fun k => if k < n then f (d.buf k) else d.buf k }))

/-- `EndianHelper::TransformEndian(StringA&&, StringB*)` (StringTransform.cpp 69-118) with source handle
`i` and destination handle `j`, `f` being `byteswap`, `clsB` the destination's encoding.  Both classes'
static empty blocks are address 0 (they differ only in `eEncoding`). -/
def transformMove (clsA clsB : Nat) (f : Nat → Nat) (s : St) (i j : Nat) (al : Al) : Out :=
  match s.hs[i]?, s.hs[j]? with
  | some (some p), some (some q) =>
    match s.mem p, s.mem q with
    | some d, some e =>
      if d.size = 0 then .ret .ok s
      else if e.size = 0 then
        match lockBuffer clsA s.mem p d.size al with
        | .ub => .ub
        | .thr m p => .thr ⟨m, s.hs.set i (some p)⟩
        | .ret .ok m p =>
          match swapIn f m p d.size with
          | none => .ub
          | some m =>
            match unlockN m p (e.size + d.size) with
            | .ub => .ub
            | .thr m p => .thr ⟨m, s.hs.set i (some p)⟩
            | .ret _ m p =>
              -- Detach, set eEncoding, Attach (which releases the destination's old block), Release
              match m p with
              | none => .ub
              | some d1 =>
                match release (upd m p (some { d1 with enc := clsB })) q with
                | none => .ub
                | some m =>
                  match release m p with
                  | none => .ub
                  | some m => .ret .ok ⟨m, (s.hs.set i (some 0)).set j (some p)⟩
        | .ret _ m p => .ret .oom ⟨m, s.hs.set i (some p)⟩
      else
        match lockBuffer clsB s.mem q (e.size + d.size) al with
        | .ub => .ub
        | .thr m q => .thr ⟨m, s.hs.set j (some q)⟩
        | .ret .ok m q =>
          -- the source pointer was taken before the lock
          match m p with
          | none => .ub
          | some d1 =>
            match copyIn m q e.size (.ext ((List.range d.size).map fun k => f (d1.buf k))) with
            | none => .ub
            | some m =>
              match unlockN m q (e.size + d.size) with
              | .ub => .ub
              | .thr m q => .thr ⟨m, s.hs.set j (some q)⟩
              | .ret _ m q => .ret .ok ⟨m, s.hs.set j (some q)⟩
        | .ret _ m q => .ret .oom ⟨m, s.hs.set j (some q)⟩
    | _, _ => .ub
  | _, _ => .ub

end Verif.StrHeap
