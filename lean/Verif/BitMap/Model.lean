/-!
# Model of `BitMap<uBits>` (include/YY/Base/Containers/BitMap.h) and the bit operations it uses.

`W` is the number of bits of `uintptr_t` (32 or 64); the array `arrBits` is a list of `W`-bit words.
Two platform variants exist in the code:

* `Win`: the Microsoft intrinsics (`_interlockedbittestandset(64)`, `_bittest(64)`, `_BitScanForward(64)`), which address bits
  relative to the base pointer, i.e. bit `i` of the array is bit `i % W` of word `i / W`;
* `Portable`: the `#else` branches (GCC/Clang), see the second half of this file.

`none` = undefined behaviour (access outside the array, shift by too many bits).
The operations are modelled as sequential (the interlocked ones are atomic).
-/
namespace Verif.BitMap

/-- A `BitMap<uBits>` object (BitMap.h 144-145): words and the count (a `uint32_t`). -/
structure Map (W : Nat) where
  words : List (BitVec W)
  count : BitVec 32
deriving DecidableEq

/-- Constructor (BitMap.h 150-154): `(uBits + W - 1) / W` zero words. -/
def Map.empty (W uBits : Nat) : Map W := ⟨List.replicate ((uBits + W - 1) / W) 0, 0⟩

/-! ## Windows variant -/

/-- `_interlockedbittestandset` / `…reset` on the array (Interlocked.h 221-224, 237-243, 283-286, 299-304): write bit `i`, return the old one. -/
def writeBit {W} (ws : List (BitVec W)) (i : Nat) (v : Bool) : Option (List (BitVec W) × Bool) :=
  match ws[i / W]? with
  | none => none
  | some w =>
    let m : BitVec W := 1#W <<< (i % W)
    some (ws.set (i / W) (if v then w ||| m else w &&& ~~~m), w.getLsbD (i % W))

/-- `SetItem` (BitMap.h 166-188). -/
def setItem {W} (m : Map W) (i : Nat) (v : Bool) : Option (Map W × Bool) :=
  match writeBit m.words i v with
  | none => none
  | some (ws, old) =>
    if v then some (⟨ws, if old then m.count else m.count + 1⟩, old)
    else some (⟨ws, if old then m.count - 1 else m.count⟩, old)

/-- `GetItem` (BitMap.h 190-195) via `_bittest(64)`. -/
def getItem {W} (m : Map W) (i : Nat) : Option Bool := (m.words[i / W]?).map (·.getLsbD (i % W))

/-- `_BitScanForward(64)`: index of the least significant set bit. -/
def bitScanForward {W} (w : BitVec W) : Option Nat := (List.range W).find? (w.getLsbD ·)

/-- `BitFind` (BitMap.h 73-87 and 100-115, Windows branches), `i < W`. -/
def bitFind {W} (w : BitVec W) (i : Nat) : Int :=
  match bitScanForward (w >>> i) with
  | some k => (i : Int) + k
  | none => -1

/-- `static_cast<int32_t>` of a `size_t`. -/
def toInt32 (n : Int) : Int := (n + 2147483648) % 4294967296 - 2147483648

/-- The block loop of `Find` (BitMap.h 214-221) over the remaining words, `b` = index of the first of them. -/
def findBlocks {W} : List (BitVec W) → Nat → Int
  | [], _ => -1
  | w :: ws, b =>
    let k := bitFind w 0
    if k ≥ 0 then toInt32 (k + b * W) else findBlocks ws (b + 1)

/-- `Find` (BitMap.h 202-224). -/
def find {W} (uBits : Nat) (m : Map W) (i : Nat) : Option Int :=
  if uBits ≤ i then some (-1)
  else
    match m.words[i / W]? with
    | none => none
    | some w =>
      let k := bitFind w (i % W)
      if k ≥ 0 then some (toInt32 (k + (i / W : Nat) * W))
      else some (findBlocks (m.words.drop (i / W + 1)) (i / W + 1))

/-- `IsEmpty` (BitMap.h 161-164), `GetSize` (156-159). -/
def isEmpty {W} (m : Map W) : Bool := m.count = 0

/-- A history of `SetItem` calls. -/
def run {W} (m : Map W) : List (Nat × Bool) → Option (Map W × List Bool)
  | [] => some (m, [])
  | (i, v) :: ops =>
    match setItem m i v with
    | none => none
    | some (m, r) =>
      match run m ops with
      | none => none
      | some (m, rs) => some (m, r :: rs)

/-! ## Portable variant (64-bit, GCC/Clang branches) -/
namespace Portable

/-- `BitFind(const uint32_t*, uint32_t)` (BitMap.h 88-93): shifting a 32-bit value by 32 or more is undefined. -/
def bitFind32 (w : BitVec 32) (i : Nat) : Option Int :=
  if i ≥ 32 then none else some (bitFind w i)

/-- `BitFind(const uint64_t*, uint32_t)` (BitMap.h 116-134), little endian: low half, then high half with the index
`_uIndex - 32` computed in `uint32_t`, and `return false` (that is 0) when nothing is found. -/
def bitFind64 (w : BitVec 64) (i : Nat) : Option Int :=
  let high : Option Int :=
    match bitFind32 (w.extractLsb' 32 32) ((i + 4294967264) % 4294967296) with
    | none => none
    | some k => some (if k ≥ 0 then k + 32 else 0)
  if i < 32 then
    match bitFind32 (w.extractLsb' 0 32) i with
    | none => none
    | some k => if k ≥ 0 then some k else high
  else high

/-- `Find` (BitMap.h 202-224) with the portable `BitFind`. -/
def findBlocks : List (BitVec 64) → Nat → Option Int
  | [], _ => some (-1)
  | w :: ws, b =>
    match bitFind64 w 0 with
    | none => none
    | some k => if k ≥ 0 then some (toInt32 (k + b * 64)) else findBlocks ws (b + 1)

def find (uBits : Nat) (m : Map 64) (i : Nat) : Option Int :=
  if uBits ≤ i then some (-1)
  else
    match m.words[i / 64]? with
    | none => none
    | some w =>
      match bitFind64 w (i % 64) with
      | none => none
      | some k =>
        if k ≥ 0 then some (toInt32 (k + (i / 64 : Nat) * 64))
        else findBlocks (m.words.drop (i / 64 + 1)) (i / 64 + 1)

/-- Portable `BitSet(volatile uint64_t*, uint32_t)` (Interlocked.h 245-249): `1 << _uOffset` is a 32-bit shift; returns old word tested
against the 32-bit mark.  It only ever accesses the word at the base pointer. -/
def bitSet64 (w : BitVec 64) (i : Nat) : Option (BitVec 64 × Bool) :=
  if i ≥ 32 then none
  else
    let mark : BitVec 32 := 1#32 <<< i
    some (w ||| mark.setWidth 64, (w &&& mark.setWidth 64) ≠ 0)

/-- Portable `BitReset(volatile uint64_t*, uint32_t)` (Interlocked.h 307-312): `~_fRemoveMark` is computed in 32 bits and zero-extended. -/
def bitReset64 (w : BitVec 64) (i : Nat) : Option (BitVec 64 × Bool) :=
  if i ≥ 32 then none
  else
    let mark : BitVec 32 := 1#32 <<< i
    some (w &&& (~~~mark).setWidth 64, (w &&& mark.setWidth 64) ≠ 0)

/-- `SetItem` (BitMap.h 166-188) with the portable bit operations. -/
def setItem (m : Map 64) (i : Nat) (v : Bool) : Option (Map 64 × Bool) :=
  match m.words with
  | [] => none
  | w :: ws =>
    match (if v then bitSet64 w i else bitReset64 w i) with
    | none => none
    | some (w', old) =>
      if v then some (⟨w' :: ws, if old then m.count else m.count + 1⟩, old)
      else some (⟨w' :: ws, if old then m.count - 1 else m.count⟩, old)

end Portable
end Verif.BitMap
