import Verif.View.Model
/-!
# Model of the raw string functions (include/YY/Base/tchar.h)

A pointer to units is the list of the units that may be read from it on (up to the end of the object it points into); reading from the empty list
is undefined behaviour, the outcome `none`.  The null pointer is `none : Option (List Int)`.  Whether two pointers are equal is a separate
argument (equal pointers see equal lists).
-/
namespace Verif.Tchar
open Verif.View (upper diffSmall diffU32 diffW32)

/-- The unit types (YY.h 137-178): `char` of MSVC (signed), `unsigned char` (achar_t elsewhere) and `char8_t`, 16-bit `wchar_t` of Windows,
`char16_t` (u16char_t elsewhere), `char32_t` (u32char_t of Windows), 32-bit `wchar_t` (elsewhere). -/
inductive Ch where
  | aWin | byte | w16 | c16 | c32 | w32
deriving DecidableEq

/-- the values of a unit -/
def Ch.Range : Ch → Int → Prop
  | .aWin, x => -128 ≤ x ∧ x ≤ 127
  | .byte, x => 0 ≤ x ∧ x ≤ 255
  | .w16, x => 0 ≤ x ∧ x ≤ 65535
  | .c16, x => 0 ≤ x ∧ x ≤ 65535
  | .c32, x => 0 ≤ x ∧ x ≤ 4294967295
  | .w32, x => -2147483648 ≤ x ∧ x ≤ 2147483647

/-- `a - b` of two units, converted to `int` -/
def Ch.diff : Ch → Int → Int → Option Int
  | .c32 => diffU32
  | .w32 => diffW32
  | _ => diffSmall

/-- is there a specialisation that calls the C library (201-258, 287-332)?  The others use the generic template. -/
def Ch.library : Ch → Bool
  | .c16 => false
  | .c32 => false
  | _ => true

/-- how `strcmp`, `memcmp` (as `unsigned char`) and `wcscmp`, `wmemcmp` see a unit -/
def Ch.key : Ch → Int → Int
  | .aWin, x => x % 256
  | _, x => x

/-- `GetStringLength` (43-73) -/
def lengthLoop : List Int → Option Nat
  | [] => none
  | x :: l => if x = 0 then some 0 else (lengthLoop l).map (· + 1)

def getStringLength (p : Option (List Int)) : Option Nat :=
  match p with
  | none => some 0
  | some l => lengthLoop l

/-- `IsEmptyString` (75-79) -/
def isEmptyString (p : Option (List Int)) : Option Bool :=
  match p with
  | none => some true
  | some [] => none
  | some (x :: _) => some (decide (x = 0))

/-- the loops of `StringCompare` (188-198) and `StringCompareIgnoreAsASCII` (355-365); `f` is the identity or `CharUpperAsASCII` -/
def loopZ (diff : Int → Int → Option Int) (f : Int → Int) : List Int → List Int → Option Int
  | x :: l, y :: r =>
    match diff (f x) (f y) with
    | none => none
    | some d => if d ≠ 0 then some d else if x = 0 then some 0 else loopZ diff f l r
  | _, _ => none

/-- `strcmp` / `wcscmp` of the C library: only the sign of the result is specified -/
def libCompare (key : Int → Int) : List Int → List Int → Option Int
  | x :: l, y :: r =>
    if key x < key y then some (-1) else if key y < key x then some 1 else if x = 0 then some 0 else libCompare key l r
  | _, _ => none

/-- the part shared by all overloads for terminated strings (175-186, 204-215, 244-255, 346-353) -/
def nullCases (same : Bool) (l r : Option (List Int)) (k : List Int → List Int → Option Int) : Option Int :=
  if same then some 0
  else match l, r with
    | none, none => some 0
    | none, some [] => none
    | none, some (y :: _) => some (if y ≠ 0 then -1 else 0)
    | some [], none => none
    | some (x :: _), none => some (if x ≠ 0 then 1 else 0)
    | some l, some r => k l r

/-- `StringCompare(left, right)` (172-258) -/
def compareZ (c : Ch) (same : Bool) (l r : Option (List Int)) : Option Int :=
  nullCases same l r (if c.library then libCompare c.key else loopZ c.diff id)

/-- `StringCompareIgnoreAsASCII(left, right)` (343-366) -/
def compareIZ (c : Ch) (same : Bool) (l r : Option (List Int)) : Option Int :=
  nullCases same l r (loopZ c.diff upper)

/-- the loop of the generic counted `StringCompare` with the statement after it (281-284) -/
def loopN (diff : Int → Int → Option Int) : Nat → List Int → List Int → Option Int
  | 0, x :: _, y :: _ => diff x y
  | n + 1, x :: l, y :: r => if x = y then loopN diff n l r else diff x y
  | _, _, _ => none

/-- `memcmp` / `wmemcmp`: all `n` units of both must be readable; only the sign of the result is specified -/
def libCompareN (key : Int → Int) : Nat → List Int → List Int → Option Int
  | 0, _, _ => some 0
  | n + 1, x :: l, y :: r =>
    match libCompareN key n l r with
    | none => none
    | some d => some (if key x < key y then -1 else if key y < key x then 1 else d)
  | _, _, _ => none

/-- `StringCompare(left, right, count)` (269-332) -/
def compareN (c : Ch) (same : Bool) (l r : List Int) (n : Nat) : Option Int :=
  if n = 0 then some 0
  else if same then some 0
  else if c.library then libCompareN c.key n l r else loopN c.diff n l r

/-- the loop of `StringCompareIgnoreAsASCII(left, right, count)` (389-396) -/
def loopIN (diff : Int → Int → Option Int) : Nat → List Int → List Int → Option Int
  | 0, _, _ => some 0
  | n + 1, x :: l, y :: r =>
    match diff (upper x) (upper y) with
    | none => none
    | some d => if d ≠ 0 then some d else loopIN diff n l r
  | _, _, _ => none

/-- `StringCompareIgnoreAsASCII(left, right, count)` (377-397) -/
def compareIN (c : Ch) (same : Bool) (l r : List Int) (n : Nat) : Option Int :=
  if n = 0 then some 0
  else if same then some 0
  else loopIN c.diff n l r

end Verif.Tchar
