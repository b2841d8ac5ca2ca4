/-!
Memory requests and growth of the containers: copy-on-write `Array` (`include/YY/Base/Containers/Array.h`, Array below), `Array` with small
object optimisation (same file) and `String` (`include/YY/Base/Strings/String.h`, String below).

The functions compute which capacity a block records and how many bytes are asked for, in `size_t` arithmetic: `W` is 2^32 or 2^64 and all sums
and products are taken modulo `W`. `hdr` is the size of the header in front of the elements, `t` the size of an element.

Simplifications. The allocator always has memory (Arr, Soo and StrHeap have the failures). The buffer is neither shared nor locked, except for
the static empty block (C09, C20, C73 have the rest).
-/
namespace Verif.Grow

/-- a value of type `size_t` -/
def wrap (W n : Nat) : Nat := n % W

/-- `(n + 15) & ~15` (Array.h 406, 438, 1022; String.h 1121, 1141) -/
def round16 (W n : Nat) : Nat := wrap W (n + 15) / 16 * 16

/-- What a block records as its capacity, and the bytes that were asked for. -/
structure Req where
  cap : Nat
  bytes : Nat
  deriving DecidableEq, Repr

/-- `SharedData::Alloc` (Array.h 435-452); capacity 0: the static empty block, no memory is asked for -/
def cowAlloc (W hdr t n : Nat) : Req :=
  if round16 W n = 0 then ⟨0, 0⟩ else ⟨round16 W n, wrap W (hdr + wrap W (t * round16 W n))⟩

/-- `SharedData::ReAlloc` (Array.h 389-433) of a block with too little capacity. For types that are not trivially copyable (`triv = false`) line
419 calls `SharedData::Alloc` with a number of bytes; `none`: this returns the static empty block, which is then written to. -/
def cowRealloc (W hdr t : Nat) (triv : Bool) (n : Nat) : Option Req :=
  if triv then some ⟨round16 W n, wrap W (hdr + wrap W (t * round16 W n))⟩
  else
    if (cowAlloc W hdr t (wrap W (hdr + wrap W (t * round16 W n)))).cap = 0 then none
    else some ⟨round16 W n, (cowAlloc W hdr t (wrap W (hdr + wrap W (t * round16 W n)))).bytes⟩

/-- `GetNewCapacity` (Array.h 588-599, 995-1006) -/
def newCap (W cap need : Nat) : Nat :=
  if need ≤ cap then cap else if need ≤ wrap W (cap + cap / 2) then wrap W (cap + cap / 2) else need

/-- `InternalData::Realloc` of the small object optimisation (Array.h 800-860) -/
def sooRealloc (W t n : Nat) : Req := ⟨n, wrap W (n * t)⟩

/-- `AllocStringData` (String.h 1134-1159); `t` is the size of a character -/
def strAlloc (W hdr t n : Nat) : Req :=
  if n = 0 then ⟨0, 0⟩
  else ⟨wrap W (round16 W (wrap W (n + 1)) + (W - 1)), wrap W (hdr + wrap W (round16 W (wrap W (n + 1)) * t))⟩

/-- the capacity, terminator included, computed in `ReallocStringData` (String.h 1113-1121) -/
def strNew (W cap n : Nat) : Nat :=
  round16 W (if wrap W (cap + cap / 2) < wrap W (n + 1) then wrap W (n + 1) else wrap W (cap + cap / 2))

/-- `ReallocStringData` (String.h 1108-1132) of a block with too little capacity -/
def strRealloc (W hdr t cap n : Nat) : Req :=
  ⟨wrap W (strNew W cap n + (W - 1)), wrap W (hdr + wrap W (strNew W cap n * t))⟩

/-! ### A container that grows -/

/-- Recorded capacity, number of elements, and how many elements were moved to other memory so far -/
structure Buf where
  cap : Nat := 0
  size : Nat := 0
  moved : Nat := 0
  deriving DecidableEq, Repr

/-- `Add` of `k` elements (Array.h 1211-1247), `LockInternalDataIncrement` (548-580). Of the static empty block (capacity 0) the code clones,
which asks for the same capacity (`Alloc` 435). -/
def cowAdd (W hdr t : Nat) (triv : Bool) (b : Buf) (k : Nat) : Option Buf :=
  if newCap W b.cap (wrap W (b.size + k)) ≤ b.cap then some { b with size := wrap W (b.size + k) }
  else if b.cap = 0 then
    some ⟨(cowAlloc W hdr t (wrap W (b.size + k))).cap, wrap W (b.size + k), b.moved + b.size⟩
  else
    (cowRealloc W hdr t triv (newCap W b.cap (wrap W (b.size + k)))).map fun r => ⟨r.cap, wrap W (b.size + k), b.moved + b.size⟩

/-- `Add` with small object optimisation: `LockInternalDataIncrement` (Array.h 1032-1049) -/
def sooAdd (W t : Nat) (b : Buf) (k : Nat) : Buf :=
  if wrap W (b.size + k) ≤ b.cap then { b with size := wrap W (b.size + k) }
  else ⟨(sooRealloc W t (newCap W b.cap (wrap W (b.size + k)))).cap, wrap W (b.size + k), b.moved + b.size⟩

/-- `AppendString` (String.h 450-468) and `AppendChar` (490-505): `LockBuffer` (266-312) -/
def strAdd (W hdr t : Nat) (b : Buf) (k : Nat) : Buf :=
  if wrap W (b.size + k) ≤ b.cap then { b with size := wrap W (b.size + k) }
  else if b.cap = 0 then ⟨(strAlloc W hdr t (wrap W (b.size + k))).cap, wrap W (b.size + k), b.moved + b.size⟩
  else ⟨(strRealloc W hdr t b.cap (wrap W (b.size + k))).cap, wrap W (b.size + k), b.moved + b.size⟩

/-- `Resize(n)` (Array.h 1105-1119), `LockBufferAndSetSize` (1121-1146), `LockInternalData` (518-546): no growth by half -/
def cowResize (W hdr t : Nat) (triv : Bool) (b : Buf) (n : Nat) : Option Buf :=
  if n ≤ b.cap then some { b with size := n }
  else if b.cap = 0 then some ⟨(cowAlloc W hdr t n).cap, n, b.moved + b.size⟩
  else (cowRealloc W hdr t triv n).map fun r => ⟨r.cap, n, b.moved + b.size⟩

/-! ### Specification -/

/-- The block has room for the `n` elements asked for and for all it records, behind the header; `z` elements are for a terminator. -/
def Covers (hdr t z n : Nat) (r : Req) : Prop := n ≤ r.cap ∧ hdr + t * (r.cap + z) ≤ r.bytes

/-- `n` rounded up to a multiple of 16 -/
def up16 (n : Nat) : Nat := (n + 15) / 16 * 16

end Verif.Grow
