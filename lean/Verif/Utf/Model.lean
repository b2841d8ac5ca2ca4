/-! # Encoding conversion (src/YY/Base/Strings/StringTransform.cpp)

Code units are natural numbers (bytes below 2^8, UTF-16 units below 2^16, UTF-32 units below 2^32), casts and unsigned arithmetic are written out modulo 2^n.
A destination string is its contents, its capacity and the growth behaviour of the allocator; writing at an index at or above the capacity is the outcome `ub`.
Not modelled: null destination (`E_POINTER`), code pages (`aString`). -/
namespace Verif.Utf

/-- '?' -/
def q : Nat := 0x3F

/-- `byteswap(u16char_t)`, StringTransform.cpp 17-24; the argument is converted to 16 bits -/
def swap16 (x : Nat) : Nat := ((x &&& 0xFF) <<< 8) ||| ((x >>> 8) &&& 0xFF)

/-- `byteswap(u32char_t)`, StringTransform.cpp 26-33; the argument is converted to 32 bits -/
def swap32 (x : Nat) : Nat := ((x &&& 0xFF) <<< 24) ||| (((x >>> 8) &&& 0xFF) <<< 16) ||| (((x >>> 16) &&& 0xFF) <<< 8) ||| ((x >>> 24) &&& 0xFF)

/-- Destination string: the units in front of the write position, and the capacity. -/
structure Dst where
  buf : List Nat
  cap : Nat
deriving DecidableEq, Repr

/-- Result of a conversion: success, `E_OUTOFMEMORY` with the destination as left behind, or a write outside the locked buffer. -/
inductive Res where
  | ok (d : Dst)
  | oom (d : Dst)
  | ub
deriving DecidableEq, Repr

/-- The allocator: `grow cap n` is the capacity after enlarging a buffer of capacity `cap` for `n` units, `none` if the allocation fails. -/
abbrev Grow := Nat → Nat → Option Nat

/-- an allocator that returns at least what is asked for -/
def Good (g : Grow) : Prop := ∀ c n c', g c n = some c' → n ≤ c'
/-- an allocator that does not fail -/
def Total (g : Grow) : Prop := ∀ c n, ∃ c', g c n = some c'

/-- capacity chosen by `ReallocStringData` (String.h 1108-1132) for an exclusive buffer -/
def growRealloc (cap n : Nat) : Nat :=
  let a := n + 1
  let c := cap + cap / 2
  let c := if c < a then a else c
  (c + 15) / 16 * 16 - 1

/-- capacity chosen by `AllocStringData` (String.h 1134-1158), used when the buffer was shared (`CloneStringData`, 1087-1106) -/
def growAlloc (n : Nat) : Nat := (n + 1 + 15) / 16 * 16 - 1

/-- `LockBuffer(n)` (String.h 266-311) on a destination that is not locked: kept if large enough, else enlarged. -/
def lock (g : Grow) (d : Dst) (n : Nat) : Option Dst :=
  if n ≤ d.cap then some d else (g d.cap n).map fun c => { d with cap := c }

/-- `buffer[cch++] = c` -/
def put (d : Dst) (c : Nat) : Option Dst := if d.buf.length < d.cap then some { d with buf := d.buf ++ [c] } else none

def puts (d : Dst) : List Nat → Option Dst
  | [] => some d
  | c :: l => (put d c).bind fun d => puts d l

/-! ## Sources in UTF-8 -/

/-- `(b & 0xC0u) == 0x80u` -/
def cont (b : Nat) : Bool := (b &&& 0xC0) == 0x80

/-- Loop over a UTF-8 source. `step ch rest` is one iteration at lead byte `ch`: `none` for `break`, otherwise the units written and the number of bytes of `rest` consumed.
The final `if (_szSrcBuffer != _szSrcEnd)` writes `tail`. -/
def loop8 (step : Nat → List Nat → Option (List Nat × Nat)) (tail : Nat) (d : Dst) : List Nat → Option Dst
  | [] => some d
  | ch :: rest =>
    match step ch rest with
    | none => put d tail
    | some (o, k) => (puts d o).bind fun d => loop8 step tail d (rest.drop k)
termination_by l => l.length
decreasing_by simp [List.length_drop]; omega

/-- The frame shared by the four UTF-8 conversions (e.g. 363-386 and 463-469): nothing for an empty source, one `LockBuffer` for size + number of bytes, loop. -/
def conv8 (step : Nat → List Nat → Option (List Nat × Nat)) (tail : Nat) (g : Grow) (src : List Nat) (d : Dst) : Res :=
  if src = [] then .ok d
  else match lock g d (d.buf.length + src.length) with
    | none => .oom d
    | some d => match loop8 step tail d src with
      | none => .ub
      | some d => .ok d

/-- `Transform(u8StringView, u16StringLE*)`, StringTransform.cpp 383-462: one loop iteration. -/
def step8to16LE (ch : Nat) (rest : List Nat) : Option (List Nat × Nat) :=
  if ch ≥ 0xF8 then some ([q], 0)
  else if ch ≥ 0xF0 then
    match rest with
    | b1 :: b2 :: b3 :: _ =>
      if cont b1 && cont b2 && cont b3 then
        let t := ((ch &&& 0x7) <<< 18) ||| ((b1 &&& 0x3F) <<< 12) ||| ((b2 &&& 0x3F) <<< 6) ||| ((b3 &&& 0x3F) <<< 0)
        let t := (t + 2 ^ 32 - 0x10000) % 2 ^ 32
        some ([((t >>> 10) + 0xD800) % 2 ^ 16, ((t &&& 0x3FF) + 0xDC00) % 2 ^ 16], 3)
      else some ([q], 0)
    | _ => none
  else if ch ≥ 0xE0 then
    match rest with
    | b1 :: b2 :: _ =>
      if cont b1 && cont b2 then
        some ([(((ch &&& 0xF) <<< 12) ||| ((b1 &&& 0x3F) <<< 6) ||| ((b2 &&& 0x3F) <<< 0)) % 2 ^ 16], 2)
      else some ([q], 0)
    | _ => none
  else if ch ≥ 0xC0 then
    match rest with
    | b1 :: _ =>
      if cont b1 then some ([(((ch &&& 0x1F) <<< 6) ||| ((b1 &&& 0x3F) <<< 0)) % 2 ^ 16], 1)
      else some ([q], 0)
    | _ => none
  else if ch ≥ 0x80 then some ([q], 0)
  else some ([ch], 0)

/-- `Transform(u8StringView, u16StringBE*)`, StringTransform.cpp 491-570: one loop iteration. -/
def step8to16BE (ch : Nat) (rest : List Nat) : Option (List Nat × Nat) :=
  if ch ≥ 0xF8 then some ([swap16 (q)], 0)
  else if ch ≥ 0xF0 then
    match rest with
    | b1 :: b2 :: b3 :: _ =>
      if cont b1 && cont b2 && cont b3 then
        let t := ((ch &&& 0x7) <<< 18) ||| ((b1 &&& 0x3F) <<< 12) ||| ((b2 &&& 0x3F) <<< 6) ||| ((b3 &&& 0x3F) <<< 0)
        let t := (t + 2 ^ 32 - 0x10000) % 2 ^ 32
        some ([swap16 (((t >>> 10) + 0xD800) % 2 ^ 16), swap16 (((t &&& 0x3FF) + 0xDC00) % 2 ^ 16)], 3)
      else some ([swap16 (q)], 0)
    | _ => none
  else if ch ≥ 0xE0 then
    match rest with
    | b1 :: b2 :: _ =>
      if cont b1 && cont b2 then
        some ([swap16 ((((ch &&& 0xF) <<< 12) ||| ((b1 &&& 0x3F) <<< 6) ||| ((b2 &&& 0x3F) <<< 0)) % 2 ^ 16)], 2)
      else some ([swap16 (q)], 0)
    | _ => none
  else if ch ≥ 0xC0 then
    match rest with
    | b1 :: _ =>
      if cont b1 then some ([swap16 ((((ch &&& 0x1F) <<< 6) ||| ((b1 &&& 0x3F) <<< 0)) % 2 ^ 16)], 1)
      else some ([swap16 (q)], 0)
    | _ => none
  else if ch ≥ 0x80 then some ([swap16 (q)], 0)
  else some ([swap16 (ch)], 0)

/-- `Transform(u8StringView, u32StringLE*)`, StringTransform.cpp 599-709: one loop iteration. -/
def step8to32LE (ch : Nat) (rest : List Nat) : Option (List Nat × Nat) :=
  if ch ≥ 0xFE then some ([q], 0)
  else if ch ≥ 0xFC then
    match rest with
    | b1 :: b2 :: b3 :: b4 :: b5 :: _ =>
      if cont b1 && cont b2 && cont b3 && cont b4 && cont b5 then
        some ([((ch &&& 0x1) <<< 30) ||| ((b1 &&& 0x3F) <<< 24) ||| ((b2 &&& 0x3F) <<< 18) ||| ((b3 &&& 0x3F) <<< 12) ||| ((b4 &&& 0x3F) <<< 6) ||| ((b5 &&& 0x3F) <<< 0)], 5)
      else some ([q], 0)
    | _ => none
  else if ch ≥ 0xF8 then
    match rest with
    | b1 :: b2 :: b3 :: b4 :: _ =>
      if cont b1 && cont b2 && cont b3 && cont b4 then
        some ([((ch &&& 0x3) <<< 24) ||| ((b1 &&& 0x3F) <<< 18) ||| ((b2 &&& 0x3F) <<< 12) ||| ((b3 &&& 0x3F) <<< 6) ||| ((b4 &&& 0x3F) <<< 0)], 4)
      else some ([q], 0)
    | _ => none
  else if ch ≥ 0xF0 then
    match rest with
    | b1 :: b2 :: b3 :: _ =>
      if cont b1 && cont b2 && cont b3 then
        some ([((ch &&& 0x7) <<< 18) ||| ((b1 &&& 0x3F) <<< 12) ||| ((b2 &&& 0x3F) <<< 6) ||| ((b3 &&& 0x3F) <<< 0)], 3)
      else some ([q], 0)
    | _ => none
  else if ch ≥ 0xE0 then
    match rest with
    | b1 :: b2 :: _ =>
      if cont b1 && cont b2 then
        some ([((ch &&& 0xF) <<< 12) ||| ((b1 &&& 0x3F) <<< 6) ||| ((b2 &&& 0x3F) <<< 0)], 2)
      else some ([q], 0)
    | _ => none
  else if ch ≥ 0xC0 then
    match rest with
    | b1 :: _ =>
      if cont b1 then some ([((ch &&& 0x1F) <<< 6) ||| ((b1 &&& 0x3F) <<< 0)], 1)
      else some ([q], 0)
    | _ => none
  else if ch ≥ 0x80 then some ([q], 0)
  else some ([ch], 0)

/-- `Transform(u8StringView, u32StringBE*)`, StringTransform.cpp 738-848: one loop iteration. Line 762 writes an unswapped '?'. -/
def step8to32BE (ch : Nat) (rest : List Nat) : Option (List Nat × Nat) :=
  if ch ≥ 0xFE then some ([swap32 (q)], 0)
  else if ch ≥ 0xFC then
    match rest with
    | b1 :: b2 :: b3 :: b4 :: b5 :: _ =>
      if cont b1 && cont b2 && cont b3 && cont b4 && cont b5 then
        some ([swap32 (((ch &&& 0x1) <<< 30) ||| ((b1 &&& 0x3F) <<< 24) ||| ((b2 &&& 0x3F) <<< 18) ||| ((b3 &&& 0x3F) <<< 12) ||| ((b4 &&& 0x3F) <<< 6) ||| ((b5 &&& 0x3F) <<< 0))], 5)
      else some ([q], 0)
    | _ => none
  else if ch ≥ 0xF8 then
    match rest with
    | b1 :: b2 :: b3 :: b4 :: _ =>
      if cont b1 && cont b2 && cont b3 && cont b4 then
        some ([swap32 (((ch &&& 0x3) <<< 24) ||| ((b1 &&& 0x3F) <<< 18) ||| ((b2 &&& 0x3F) <<< 12) ||| ((b3 &&& 0x3F) <<< 6) ||| ((b4 &&& 0x3F) <<< 0))], 4)
      else some ([swap32 (q)], 0)
    | _ => none
  else if ch ≥ 0xF0 then
    match rest with
    | b1 :: b2 :: b3 :: _ =>
      if cont b1 && cont b2 && cont b3 then
        some ([swap32 (((ch &&& 0x7) <<< 18) ||| ((b1 &&& 0x3F) <<< 12) ||| ((b2 &&& 0x3F) <<< 6) ||| ((b3 &&& 0x3F) <<< 0))], 3)
      else some ([swap32 (q)], 0)
    | _ => none
  else if ch ≥ 0xE0 then
    match rest with
    | b1 :: b2 :: _ =>
      if cont b1 && cont b2 then
        some ([swap32 (((ch &&& 0xF) <<< 12) ||| ((b1 &&& 0x3F) <<< 6) ||| ((b2 &&& 0x3F) <<< 0))], 2)
      else some ([swap32 (q)], 0)
    | _ => none
  else if ch ≥ 0xC0 then
    match rest with
    | b1 :: _ =>
      if cont b1 then some ([swap32 (((ch &&& 0x1F) <<< 6) ||| ((b1 &&& 0x3F) <<< 0))], 1)
      else some ([swap32 (q)], 0)
    | _ => none
  else if ch ≥ 0x80 then some ([swap32 (q)], 0)
  else some ([swap32 (ch)], 0)

/-- `Transform(u8StringView, u16StringLE*)`, StringTransform.cpp 363-469 -/
def u8to16LE := conv8 step8to16LE q
/-- `Transform(u8StringView, u16StringBE*)`, StringTransform.cpp 471-577 -/
def u8to16BE := conv8 step8to16BE (swap16 q)
/-- `Transform(u8StringView, u32StringLE*)`, StringTransform.cpp 579-716 -/
def u8to32LE := conv8 step8to32LE q
/-- `Transform(u8StringView, u32StringBE*)`, StringTransform.cpp 718-855; line 851 writes an unswapped '?' -/
def u8to32BE := conv8 step8to32BE q

/-! ## Sources in UTF-16: a pending unit `last` (0 if none) -/

/-- Loop with the capacity check in front of each iteration (e.g. 883-950): `step last ch` gives the units written and the new pending unit. `none`: the write left the buffer;
`some (inl d)`: `LockBuffer` failed (the preceding `UnlockBuffer` has set the size to what was written so far); `some (inr d)`: finished, with the final '?' if a unit is pending. -/
def loop16g (step : Nat → Nat → List Nat × Nat) (room tail : Nat) (g : Grow) (d : Dst) (last : Nat) : List Nat → Option (Dst ⊕ Dst)
  | [] => if last ≠ 0 then (put d tail).map .inr else some (.inr d)
  | ch :: src =>
    match (if d.buf.length + room > d.cap then lock g d (d.buf.length + room) else some d) with
    | none => some (.inl d)
    | some d => (puts d (step last ch).1).bind fun d => loop16g step room tail g d (step last ch).2 src

/-- Loop without capacity check (e.g. 974-1010) -/
def loop16 (step : Nat → Nat → List Nat × Nat) (tail : Nat) (d : Dst) (last : Nat) : List Nat → Option Dst
  | [] => if last ≠ 0 then put d tail else some d
  | ch :: src => (puts d (step last ch).1).bind fun d => loop16 step tail d (step last ch).2 src

/-- `Transform(u16StringLEView, u8String*)`, StringTransform.cpp 894-935: one loop iteration -/
def step16LEto8 (last ch : Nat) : List Nat × Nat :=
  if last ≠ 0 ∧ ch ≥ 0xDC00 ∧ ch < 0xE000 then
    let c := ((((last - 0xD800) <<< 10) ||| (ch - 0xDC00)) + 0x10000) % 2 ^ 32
    ([((c >>> 18) &&& 0x07) ||| 0xF0, ((c >>> 12) &&& 0x3F) ||| 0x80, ((c >>> 6) &&& 0x3F) ||| 0x80, ((c >>> 0) &&& 0x3F) ||| 0x80], 0)
  else
    let o := if last ≠ 0 then [q] else []
    if ch < 0x80 then (o ++ [ch % 2 ^ 8], 0)
    else if ch < 0x800 then (o ++ [((ch >>> 6) &&& 0x1F) ||| 0xC0, ((ch >>> 0) &&& 0x3F) ||| 0x80], 0)
    else if ch < 0xD800 ∨ ch > 0xE000 then
      (o ++ [((ch >>> 12) &&& 0x0F) ||| 0xE0, ((ch >>> 6) &&& 0x3F) ||| 0x80, ((ch >>> 0) &&& 0x3F) ||| 0x80], 0)
    else (o, ch)

/-- `Transform(u16BEStringView, u8String*)`, StringTransform.cpp 1055-1109: one loop iteration -/
def step16BEto8 (last ch : Nat) : List Nat × Nat :=
  let ch := swap16 ch
  if last ≠ 0 ∧ ch ≥ 0xDC00 ∧ ch < 0xE000 then
    let c := ((((last - 0xD800) <<< 10) ||| (ch - 0xDC00)) + 0x10000) % 2 ^ 32
    ([((c >>> 18) &&& 0x07) ||| 0xF0, ((c >>> 12) &&& 0x3F) ||| 0x80, ((c >>> 6) &&& 0x3F) ||| 0x80, ((c >>> 0) &&& 0x3F) ||| 0x80], 0)
  else
    let o := if last ≠ 0 then [q] else []
    if ch < 0x80 then (o ++ [ch % 2 ^ 8], 0)
    else if ch < 0x800 then (o ++ [((ch >>> 6) &&& 0x1F) ||| 0xC0, ((ch >>> 0) &&& 0x3F) ||| 0x80], 0)
    else if ch < 0xD800 ∨ ch > 0xE000 then
      (o ++ [((ch >>> 12) &&& 0x0F) ||| 0xE0, ((ch >>> 6) &&& 0x3F) ||| 0x80, ((ch >>> 0) &&& 0x3F) ||| 0x80], 0)
    else (o, ch)

/-- `Transform(u16StringLEView, u32StringLE*)`, StringTransform.cpp 976-1003: one loop iteration -/
def step16LEto32LE (last ch : Nat) : List Nat × Nat :=
  if last ≠ 0 ∧ ch ≥ 0xDC00 ∧ ch < 0xE000 then
    ([((((last - 0xD800) <<< 10) ||| (ch - 0xDC00)) + 0x10000) % 2 ^ 32], 0)
  else
    let o := if last ≠ 0 then [q] else []
    if ch ≥ 0xD800 ∧ ch ≤ 0xE000 then (o, ch) else (o ++ [ch], 0)

/-- `Transform(u16StringBEView, u32StringLE*)`, StringTransform.cpp 1184-1213: one loop iteration -/
def step16BEto32LE (last ch : Nat) : List Nat × Nat :=
  let ch := swap16 ch
  if last ≠ 0 ∧ ch ≥ 0xDC00 ∧ ch < 0xE000 then
    ([((((last - 0xD800) <<< 10) ||| (ch - 0xDC00)) + 0x10000) % 2 ^ 32], 0)
  else
    let o := if last ≠ 0 then [q] else []
    if ch ≥ 0xD800 ∧ ch ≤ 0xE000 then (o, ch) else (o ++ [ch], 0)

/-- `Transform(u16StringBEView, u32StringBE*)`, StringTransform.cpp 1244-1273: one loop iteration -/
def step16BEto32BE (last ch : Nat) : List Nat × Nat :=
  let ch := swap16 ch
  if last ≠ 0 ∧ ch ≥ 0xDC00 ∧ ch < 0xE000 then
    ([swap32 (((((last - 0xD800) <<< 10) ||| (ch - 0xDC00)) + 0x10000) % 2 ^ 32)], 0)
  else
    let o := if last ≠ 0 then [swap32 q] else []
    if ch ≥ 0xD800 ∧ ch ≤ 0xE000 then (o, ch) else (o ++ [swap32 ch], 0)

/-- Frame of the conversions with capacity check; `lockFactor` times the source length is locked first. `restore` says what the failure path does: `true` for
`LockBuffer(old); UnlockBuffer(old)` (e.g. 1125-1127), `false` for `Clear()` (951). The second `LockBuffer` only fails to restore if it has to allocate, which it does not. -/
def convG (step : Nat → Nat → List Nat × Nat) (room factor : Nat) (restore : Bool) (g : Grow) (src : List Nat) (d : Dst) : Res :=
  if src = [] then .ok d
  else match lock g d (d.buf.length + src.length * factor) with
    | none => .oom d
    | some d1 => match loop16g step room q g d1 0 src with
      | none => .ub
      | some (.inr d2) => .ok d2
      | some (.inl d2) => .oom (if restore then { d2 with buf := d2.buf.take d.buf.length } else { d2 with buf := [] })

/-- Frame of the UTF-16 to UTF-32 conversions (e.g. 956-972) -/
def conv16 (step : Nat → Nat → List Nat × Nat) (tail : Nat) (g : Grow) (src : List Nat) (d : Dst) : Res :=
  if src = [] then .ok d
  else match lock g d (d.buf.length + src.length) with
    | none => .oom d
    | some d => match loop16 step tail d 0 src with
      | none => .ub
      | some d => .ok d

/-- `Transform(u16StringLEView, u8String*)`, StringTransform.cpp 857-954; out of memory clears the destination (951) -/
def u16LEto8 := convG step16LEto8 4 3 false
/-- `Transform(u16StringBEView, u8String*)`, StringTransform.cpp 1030-1128 -/
def u16BEto8 := convG step16BEto8 4 3 true
/-- `Transform(u16StringLEView, u32StringLE*)`, StringTransform.cpp 956-1012 -/
def u16LEto32LE := conv16 step16LEto32LE q
/-- `Transform(u16StringBEView, u32StringLE*)`, StringTransform.cpp 1164-1222 -/
def u16BEto32LE := conv16 step16BEto32LE q
/-- `Transform(u16StringBEView, u32StringBE*)`, StringTransform.cpp 1224-1282 -/
def u16BEto32BE := conv16 step16BEto32BE (swap32 q)

/-! ## Sources in UTF-32: no pending unit -/

/-- `Transform(u32StringLEView, u8String*)`, StringTransform.cpp 1323-1375: the units written for one source unit. The second byte of the six byte form is or-ed with 0xF0 as in the code. -/
def emit32LEto8 (ch : Nat) : List Nat :=
  if ch < 0x80 then [ch % 2 ^ 8]
  else if ch < 0x800 then [((ch >>> 6) &&& 0x1F) ||| 0xC0, ((ch >>> 0) &&& 0x3F) ||| 0x80]
  else if ch < 0x10000 then [((ch >>> 12) &&& 0x0F) ||| 0xE0, ((ch >>> 6) &&& 0x3F) ||| 0x80, ((ch >>> 0) &&& 0x3F) ||| 0x80]
  else if ch < 0x200000 then
    [((ch >>> 18) &&& 0x07) ||| 0xF0, ((ch >>> 12) &&& 0x3F) ||| 0x80, ((ch >>> 6) &&& 0x3F) ||| 0x80, ((ch >>> 0) &&& 0x3F) ||| 0x80]
  else if ch < 0x04000000 then
    [((ch >>> 24) &&& 0x03) ||| 0xF8, ((ch >>> 18) &&& 0x3F) ||| 0x80, ((ch >>> 12) &&& 0x3F) ||| 0x80, ((ch >>> 6) &&& 0x3F) ||| 0x80, ((ch >>> 0) &&& 0x3F) ||| 0x80]
  else if ch < 0x80000000 then
    [((ch >>> 30) &&& 0x01) ||| 0xFC, ((ch >>> 24) &&& 0x3F) ||| 0xF0, ((ch >>> 18) &&& 0x3F) ||| 0x80, ((ch >>> 12) &&& 0x3F) ||| 0x80,
     ((ch >>> 6) &&& 0x3F) ||| 0x80, ((ch >>> 0) &&& 0x3F) ||| 0x80]
  else [q]

/-- `Transform(u32StringBEView, u8String*)`, StringTransform.cpp 1556-1610: the units written for one source unit. The second byte of the six byte form is or-ed with 0xF0 as in the code. -/
def emit32BEto8 (ch : Nat) : List Nat :=
  let ch := swap32 ch
  if ch < 0x80 then [ch % 2 ^ 8]
  else if ch < 0x800 then [((ch >>> 6) &&& 0x1F) ||| 0xC0, ((ch >>> 0) &&& 0x3F) ||| 0x80]
  else if ch < 0x10000 then [((ch >>> 12) &&& 0x0F) ||| 0xE0, ((ch >>> 6) &&& 0x3F) ||| 0x80, ((ch >>> 0) &&& 0x3F) ||| 0x80]
  else if ch < 0x200000 then
    [((ch >>> 18) &&& 0x07) ||| 0xF0, ((ch >>> 12) &&& 0x3F) ||| 0x80, ((ch >>> 6) &&& 0x3F) ||| 0x80, ((ch >>> 0) &&& 0x3F) ||| 0x80]
  else if ch < 0x04000000 then
    [((ch >>> 24) &&& 0x03) ||| 0xF8, ((ch >>> 18) &&& 0x3F) ||| 0x80, ((ch >>> 12) &&& 0x3F) ||| 0x80, ((ch >>> 6) &&& 0x3F) ||| 0x80, ((ch >>> 0) &&& 0x3F) ||| 0x80]
  else if ch < 0x80000000 then
    [((ch >>> 30) &&& 0x01) ||| 0xFC, ((ch >>> 24) &&& 0x3F) ||| 0xF0, ((ch >>> 18) &&& 0x3F) ||| 0x80, ((ch >>> 12) &&& 0x3F) ||| 0x80,
     ((ch >>> 6) &&& 0x3F) ||| 0x80, ((ch >>> 0) &&& 0x3F) ||| 0x80]
  else [q]

/-- `Transform(u32StringLEView, u16StringLE*)`, StringTransform.cpp 1408-1437: the units written for one source unit. The surrogates are cast to `u8char_t` (1428-1429). -/
def emit32LEto16LE (ch : Nat) : List Nat :=
  if ch < 0x10000 then [ch % 2 ^ 16]
  else if ch < 0x110000 then
    let ch := ch - 0x10000
    [((ch >>> 10) + 0xD800) % 2 ^ 8, ((ch &&& 0x3FF) + 0xDC00) % 2 ^ 8]
  else [q]

/-- `Transform(u32StringLEView, u16StringBE*)`, StringTransform.cpp 1467-1496: the units written for one source unit. Line 1493 writes an unswapped '?'. -/
def emit32LEto16BE (ch : Nat) : List Nat :=
  if ch < 0x10000 then [swap16 (ch % 2 ^ 16)]
  else if ch < 0x110000 then
    let ch := ch - 0x10000
    [swap16 (((ch >>> 10) + 0xD800) % 2 ^ 16), swap16 (((ch &&& 0x3FF) + 0xDC00) % 2 ^ 16)]
  else [q]

/-- `Transform(u32StringBEView, u16StringLE*)`, StringTransform.cpp 1643-1674: the units written for one source unit. -/
def emit32BEto16LE (ch : Nat) : List Nat :=
  let ch := swap32 ch
  if ch < 0x10000 then [ch % 2 ^ 16]
  else if ch < 0x110000 then
    let ch := ch - 0x10000
    [((ch >>> 10) + 0xD800) % 2 ^ 16, ((ch &&& 0x3FF) + 0xDC00) % 2 ^ 16]
  else [q]

/-- `Transform(u32StringBEView, u16StringBE*)`, StringTransform.cpp 1704-1735: the units written for one source unit. -/
def emit32BEto16BE (ch : Nat) : List Nat :=
  let ch := swap32 ch
  if ch < 0x10000 then [swap16 (ch % 2 ^ 16)]
  else if ch < 0x110000 then
    let ch := ch - 0x10000
    [swap16 (((ch >>> 10) + 0xD800) % 2 ^ 16), swap16 (((ch &&& 0x3FF) + 0xDC00) % 2 ^ 16)]
  else [swap16 q]

/-- a loop body without pending unit -/
def noLast (emit : Nat → List Nat) (_last ch : Nat) : List Nat × Nat := (emit ch, 0)

/-- `Transform(u32StringLEView, u8String*)`, StringTransform.cpp 1301-1388 -/
def u32LEto8 := convG (noLast emit32LEto8) 6 3 true
/-- `Transform(u32StringBEView, u8String*)`, StringTransform.cpp 1534-1623 -/
def u32BEto8 := convG (noLast emit32BEto8) 6 3 true
/-- `Transform(u32StringLEView, u16StringLE*)`, StringTransform.cpp 1390-1447 -/
def u32LEto16LE := convG (noLast emit32LEto16LE) 2 1 true
/-- `Transform(u32StringLEView, u16StringBE*)`, StringTransform.cpp 1449-1506 -/
def u32LEto16BE := convG (noLast emit32LEto16BE) 2 1 true
/-- `Transform(u32StringBEView, u16StringLE*)`, StringTransform.cpp 1625-1684 -/
def u32BEto16LE := convG (noLast emit32BEto16LE) 2 1 true
/-- `Transform(u32StringBEView, u16StringBE*)`, StringTransform.cpp 1686-1745 -/
def u32BEto16BE := convG (noLast emit32BEto16BE) 2 1 true

/-! ## Byte order -/

/-- `EndianHelper::TransformEndian(const StringA&, StringB*)`, StringTransform.cpp 38-67, with `swap` the `byteswap` of the unit type -/
def endian (swap : Nat → Nat) (g : Grow) (src : List Nat) (d : Dst) : Res :=
  if src = [] then .ok d
  else match lock g d (d.buf.length + src.length) with
    | none => .oom d
    | some d => match puts d (src.map swap) with
      | none => .ub
      | some d => .ok d

/-- `Transform(u16StringLEView, u32StringBE*)`, StringTransform.cpp 1014-1028: through a temporary, then moved (69-118).
The value produced by the move path is the byte-swapped text (the ownership of its storage is the subject of C08). A failed step is `oom` with the destination unchanged. -/
def u16LEto32BE (g : Grow) (src : List Nat) (d : Dst) : Res :=
  if src = [] then .ok d
  else match u16LEto32LE g src { buf := [], cap := 0 } with
    | .ok t => endian swap32 g t.buf d
    | .oom _ => .oom d
    | .ub => .ub

end Verif.Utf
