/-!
# Model of `YY::Base::Utils::Version` (include/YY/Base/Utils/Version.h)

The union overlays `uint64_t uInternalValue` with four `uint16_t` fields (`uRevision` at the lowest address) on a little-endian machine.
-/
namespace Verif.Version

/-- the four fields (22-28) -/
structure Fields where
  major : BitVec 16
  minor : BitVec 16
  build : BitVec 16
  revision : BitVec 16
deriving DecidableEq

/-- the packed value read through `uInternalValue` after the constructor (38-44) wrote the fields -/
def pack (f : Fields) : BitVec 64 := f.major ++ f.minor ++ f.build ++ f.revision

/-- the fields read back from the packed value -/
def unpack (v : BitVec 64) : Fields := ⟨v.extractLsb' 48 16, v.extractLsb' 32 16, v.extractLsb' 16 16, v.extractLsb' 0 16⟩

/-- `uHightPart`, `uLowPart` (30-34) -/
def hightPart (v : BitVec 64) : BitVec 32 := v.extractLsb' 32 32
def lowPart (v : BitVec 64) : BitVec 32 := v.extractLsb' 0 32

inductive Rel where | eq | ne | lt | le | gt | ge
deriving DecidableEq

/-- operators before C++20 (51-54, 62-85) -/
def cmp17 (r : Rel) (a b : BitVec 64) : Bool :=
  match r with
  | .eq => a == b
  | .ne => decide (a > b)
  | .lt => decide (a < b)
  | .le => decide (a ≤ b)
  | .gt => decide (a > b)
  | .ge => decide (a ≥ b)

/-- operators with C++20 (51-60): `!=` and the orderings are rewritten to `==` and `<=>` -/
def cmp20 (r : Rel) (a b : BitVec 64) : Bool :=
  match r with
  | .eq => a == b
  | .ne => !(a == b)
  | .lt => compare a.toNat b.toNat == .lt
  | .le => compare a.toNat b.toNat != .gt
  | .gt => compare a.toNat b.toNat == .gt
  | .ge => compare a.toNat b.toNat != .lt

end Verif.Version
