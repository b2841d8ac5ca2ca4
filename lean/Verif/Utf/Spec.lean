/-! # Specification of the Unicode encoding forms (The Unicode Standard, D76, D90–D92), in arithmetic; independent of the model. -/
namespace Verif.Utf.Spec

/-- Unicode scalar value: a code point that is not a surrogate -/
def Scalar (n : Nat) : Prop := n < 0x110000 ∧ ¬ (0xD800 ≤ n ∧ n < 0xE000)

/-- UTF-8 encoding of a scalar value -/
def utf8 (n : Nat) : List Nat :=
  if n < 0x80 then [n]
  else if n < 0x800 then [0xC0 + n / 64, 0x80 + n % 64]
  else if n < 0x10000 then [0xE0 + n / 4096, 0x80 + n / 64 % 64, 0x80 + n % 64]
  else [0xF0 + n / 262144, 0x80 + n / 4096 % 64, 0x80 + n / 64 % 64, 0x80 + n % 64]

/-- UTF-16 encoding of a scalar value -/
def utf16 (n : Nat) : List Nat :=
  if n < 0x10000 then [n] else [0xD800 + (n - 0x10000) / 1024, 0xDC00 + (n - 0x10000) % 1024]

/-- exchange the two bytes of a 16-bit unit -/
def rev16 (x : Nat) : Nat := x % 256 * 256 + x / 256 % 256

/-- reverse the four bytes of a 32-bit unit -/
def rev32 (x : Nat) : Nat := x % 256 * 16777216 + x / 256 % 256 * 65536 + x / 65536 % 256 * 256 + x / 16777216 % 256

def utf8s (l : List Nat) : List Nat := l.flatMap utf8
def utf16s (l : List Nat) : List Nat := l.flatMap utf16

def isHigh (u : Nat) : Prop := 0xD800 ≤ u ∧ u < 0xDC00
def isLow (u : Nat) : Prop := 0xDC00 ≤ u ∧ u < 0xE000
instance (u) : Decidable (isHigh u) := by unfold isHigh; infer_instance
instance (u) : Decidable (isLow u) := by unfold isLow; infer_instance

/-- UTF-16 decoding with replacement: a surrogate that is not part of a pair gives '?' -/
def decode16 : List Nat → List Nat
  | [] => []
  | [u] => if isHigh u ∨ isLow u then [0x3F] else [u]
  | u :: v :: rest =>
    if isHigh u ∧ isLow v then (0x10000 + (u - 0xD800) * 1024 + (v - 0xDC00)) :: decode16 rest
    else if isHigh u ∨ isLow u then 0x3F :: decode16 (v :: rest)
    else u :: decode16 (v :: rest)

/-- number of continuation bytes announced by a lead byte -/
def need (b : Nat) : Nat := if b < 0xE0 then 1 else if b < 0xF0 then 2 else if b < 0xF8 then 3 else if b < 0xFC then 4 else 5

/-- UTF-8 decoding with replacement, as a relation between bytes and code points: well-formed characters decode to themselves; a byte that can not start a character, and a
lead byte followed by something that is not a continuation byte, give '?' each. The lead byte case asks that the announced number of bytes follows in the text. -/
inductive Scan : List Nat → List Nat → Prop
  | nil : Scan [] []
  | good (n : Nat) (bs out : List Nat) (h : Scalar n) (hs : Scan bs out) : Scan (utf8 n ++ bs) (n :: out)
  | stray (b : Nat) (bs out : List Nat) (h : (0x80 ≤ b ∧ b < 0xC0) ∨ (0xFE ≤ b ∧ b < 0x100)) (hs : Scan bs out) : Scan (b :: bs) (0x3F :: out)
  | lead (b c : Nat) (bs out : List Nat) (h : 0xC0 ≤ b ∧ b < 0xFE) (hc : c < 0x80 ∨ (0xC0 ≤ c ∧ c < 0x100)) (hn : need b ≤ bs.length + 1)
      (hs : Scan (c :: bs) out) : Scan (b :: c :: bs) (0x3F :: out)

end Verif.Utf.Spec
