/-!
# Model of the read-only views `StringView` (include/YY/Base/Strings/StringView.h) and `Span` (include/YY/Base/Containers/Span.h)

The two classes contain the same algorithms; `Span` compares elements with `==`, `StringView` compares units (`memcmp` of ranges of units), both are modelled by equality of elements.
A view is a window (`off`, `len`) into a memory block `mem`; reading outside the block is undefined behaviour (result `none`).
Sizes are `size_t`; additions and subtractions that can leave the range are taken modulo `W` = 2^64.  `kuInvalidIndex` is the inner `none` of a search result.
-/
namespace Verif.View

/-- number of values of `size_t` -/
@[irreducible] def W : Nat := 18446744073709551616

structure View (α : Type) where
  mem : List α
  off : Nat
  len : Nat
deriving DecidableEq

variable {α : Type}

/-- `pData[i]` -/
def View.rd (v : View α) (i : Nat) : Option α := v.mem[v.off + i]?

/-- forward search loop `for (item = begin; item != end; ++item) if (p(item)) return item - begin;` -/
def fwd (p : Nat → Option Bool) (i : Nat) : Nat → Option (Option Nat)
  | 0 => some none
  | n + 1 =>
    match p i with
    | none => none
    | some true => some (some i)
    | some false => fwd p (i + 1) n

/-- backward search loop `while (end != begin) { --end; if (p(end)) return end - begin; }` -/
def bwd (p : Nat → Option Bool) : Nat → Option (Option Nat)
  | 0 => some none
  | n + 1 =>
    match p n with
    | none => none
    | some true => some (some n)
    | some false => bwd p n

variable [DecidableEq α]

/-- `Span::operator==` on windows of equal length (Span.h 573-577); `memcmp(..) == 0` (StringView.h) -/
def eqLoop (a b : Nat → Option α) (i : Nat) : Nat → Option Bool
  | 0 => some true
  | n + 1 =>
    match a i, b i with
    | some x, some y => if x ≠ y then some false else eqLoop a b (i + 1) n
    | _, _ => none

/-- `operator==` (Span.h 568-580, StringView.h 132-138) -/
def eq (v w : View α) : Option Bool := if v.len ≠ w.len then some false else eqLoop v.rd w.rd 0 v.len

/-- `StringView::operator!=` (StringView.h 140-146) -/
def neView (v w : View α) : Option Bool := if v.len ≠ w.len then some true else (eqLoop v.rd w.rd 0 v.len).map (!·)

/-- the loop of `Span::operator!=` (Span.h 587-591) -/
def neLoop (a b : Nat → Option α) (i : Nat) : Nat → Option Bool
  | 0 => some false
  | n + 1 =>
    match a i, b i with
    | some x, some y => if x = y then some true else neLoop a b (i + 1) n
    | _, _ => none

/-- `Span::operator!=` (Span.h 582-594) -/
def neSpan (v w : View α) : Option Bool := if v.len ≠ w.len then some true else neLoop v.rd w.rd 0 v.len

/-- `IndexOf(ch)` (StringView.h 251-263, Span.h 126-138) -/
def indexOf (v : View α) (c : α) : Option (Option Nat) := fwd (fun i => (v.rd i).map fun x => decide (x = c)) 0 v.len

/-- `IndexOf(str)` (StringView.h 270-289, Span.h 145-163) -/
def indexOfSeq (v s : View α) : Option (Option Nat) :=
  if s.len = 0 then some none
  else if v.len < s.len then some none
  else fwd (fun i => eqLoop (fun k => v.rd (i + k)) s.rd 0 s.len) 0 (v.len - s.len + 1)

/-- `IndexOfAny` (StringView.h 296-311, Span.h 170-185) -/
def indexOfAny (v s : View α) : Option (Option Nat) :=
  if s.len = 0 then some none
  else fwd (fun i => (v.rd i).bind fun c => (indexOf s c).map Option.isSome) 0 v.len

/-- `LastIndexOf(ch)` (StringView.h 318-331, Span.h 192-205) -/
def lastIndexOf (v : View α) (c : α) : Option (Option Nat) := bwd (fun i => (v.rd i).map fun x => decide (x = c)) v.len

/-- `LastIndexOf(str)` (StringView.h 338-359, Span.h 212-232) -/
def lastIndexOfSeq (v s : View α) : Option (Option Nat) :=
  if s.len = 0 then some none
  else if v.len < s.len then some none
  else bwd (fun i => eqLoop (fun k => v.rd (i + k)) s.rd 0 s.len) (v.len - s.len + 1)

/-- `LastIndexOfAny` (StringView.h 366-382, Span.h 239-255) -/
def lastIndexOfAny (v s : View α) : Option (Option Nat) :=
  if s.len = 0 then some none
  else bwd (fun i => (v.rd i).bind fun c => (indexOf s c).map Option.isSome) v.len

omit [DecidableEq α] in
/-- `Substring(start)` / `Subspan(start)` (StringView.h 533-543, Span.h 92-102) -/
def substringFrom (v : View α) (i : Nat) : View α :=
  if i < v.len then { v with off := v.off + i, len := v.len - i } else { v with off := v.off + v.len, len := 0 }

omit [DecidableEq α] in
/-- `Substring(start, length)` / `Subspan(start, length)` (StringView.h 545-555, Span.h 110-120) -/
def substring (v : View α) (i n : Nat) : View α :=
  if i < v.len then { v with off := v.off + i, len := min (v.len - i) n } else { v with off := v.off + v.len, len := 0 }

/-- the forms with start index and count (StringView.h 391-505, Span.h 264-374): search in `Substring(index, count)` and add the index -/
def shift (i : Nat) (r : Option (Option Nat)) : Option (Option Nat) := r.map fun x => x.map fun k => (i + k) % W
def indexOfIn (v : View α) (c : α) (i n : Nat) : Option (Option Nat) :=
  if v.len = 0 then some none else shift i (indexOf (substring v i n) c)
def indexOfSeqIn (v s : View α) (i n : Nat) : Option (Option Nat) :=
  if s.len = 0 then some none else if v.len = 0 then some none else shift i (indexOfSeq (substring v i n) s)
def indexOfAnyIn (v s : View α) (i n : Nat) : Option (Option Nat) :=
  if v.len = 0 then some none else if s.len = 0 then some none else shift i (indexOfAny (substring v i n) s)
def lastIndexOfIn (v : View α) (c : α) (i n : Nat) : Option (Option Nat) :=
  if v.len = 0 then some none else shift i (lastIndexOf (substring v i n) c)
def lastIndexOfSeqIn (v s : View α) (i n : Nat) : Option (Option Nat) :=
  if v.len = 0 then some none else if s.len = 0 then some none else shift i (lastIndexOfSeq (substring v i n) s)
def lastIndexOfAnyIn (v s : View α) (i n : Nat) : Option (Option Nat) :=
  if s.len = 0 then some none else shift i (lastIndexOfAny (substring v i n) s)

omit [DecidableEq α] in
/-- `Slice(removeStart, removeEnd)` (StringView.h 517-531, Span.h 70-84): sum and differences modulo 2^64 -/
def slice (v : View α) (a b : Nat) : View α :=
  if (a + b) % W ≥ v.len then { v with len := 0 }
  else { v with off := (v.off + a) % W, len := (v.len + (W - a) + (W - b)) % W }

/-- loop of `TrimStart` (StringView.h 557-577, Span.h 381-401) -/
def trimStartLoop (s : View α) (v : View α) : Nat → Option (View α)
  | 0 => some v
  | n + 1 =>
    match v.rd 0 with
    | none => none
    | some c =>
      match indexOf s c with
      | none => none
      | some (some _) => trimStartLoop s { v with off := v.off + 1, len := n } n
      | some none => some v

def trimStart (v s : View α) : Option (View α) := if s.len = 0 then some v else trimStartLoop s v v.len

/-- loop of `TrimEnd` (StringView.h 579-595, Span.h 408-426) -/
def trimEndLoop (s : View α) (v : View α) : Nat → Option (View α)
  | 0 => some v
  | n + 1 =>
    match v.rd n with
    | none => none
    | some c =>
      match indexOf s c with
      | none => none
      | some (some _) => trimEndLoop s { v with len := n } n
      | some none => some v

def trimEnd (v s : View α) : Option (View α) := if s.len = 0 then some v else trimEndLoop s v v.len

/-- `Trim` (StringView.h 597-602, Span.h 433-438) -/
def trim (v s : View α) : Option (View α) := (trimStart v s).bind fun v => trimEnd v s

/-- `SplitAndTakeFirst(ch, index, &next)` (StringView.h 611-633, Span.h 447-469): piece and next index.
The default count of `IndexOf` is the largest `size_t`. -/
def splitFirst (v : View α) (c : α) (i : Nat) : Option (View α × Nat) :=
  match indexOfIn v c i (W - 1) with
  | none => none
  | some none => some (substringFrom v i, v.len)
  | some (some k) => some (substring v i (k - i), k + 1)

/-- `SplitAndTakeFirst(str, index, &next)` (StringView.h 642-664, Span.h 478-500) -/
def splitFirstSeq (v s : View α) (i : Nat) : Option (View α × Nat) :=
  match indexOfSeqIn v s i (W - 1) with
  | none => none
  | some none => some (substringFrom v i, v.len)
  | some (some k) => some (substring v i (k - i), k + s.len)

/-- `SplitAndTakeFirst(ch, &remaining)` (StringView.h 672-682) -/
def splitRest (v : View α) (c : α) : Option (View α × View α) :=
  (splitFirst v c 0).map fun (p, n) => (p, substringFrom v n)

/-- `SplitAndTakeFirst(str, &remaining)` (StringView.h 690-699) -/
def splitRestSeq (v s : View α) : Option (View α × View α) :=
  (splitFirstSeq v s 0).map fun (p, n) => (p, substringFrom v n)

/-- the caller's loop: `do { piece = SplitAndTakeFirst(sep, i, &i); … } while (i < GetLength());` with at most `fuel` iterations -/
def splitLoop (first : Nat → Option (View α × Nat)) (len : Nat) (i : Nat) : Nat → Option (List (View α))
  | 0 => none
  | fuel + 1 =>
    match first i with
    | none => none
    | some (p, next) => if next < len then (splitLoop first len next fuel).map (p :: ·) else some [p]

/-- `StartsWith` (StringView.h 734-740, Span.h 539-545) -/
def startsWith (v s : View α) : Option Bool := if v.len < s.len then some false else eq (substring v 0 s.len) s

/-- `EndsWith` (StringView.h 747-753, Span.h 552-558) -/
def endsWith (v s : View α) : Option Bool := if v.len < s.len then some false else eq (substring v (v.len - s.len) s.len) s

/-- `Contains(ch)`, `Contains(str)`, `ContainsAny` (StringView.h 706-727, Span.h 507-532) -/
def contains (v : View α) (c : α) : Option Bool := (indexOf v c).map Option.isSome
def containsSeq (v s : View α) : Option Bool := (indexOfSeq v s).map Option.isSome
def containsAny (v s : View α) : Option Bool := (indexOfAny v s).map Option.isSome

/-! ## Comparison (units are integers) -/

/-- `a - b` for units that are promoted to `int` (`char`, `char8_t`, `char16_t`, 16-bit `wchar_t`) -/
def diffSmall (a b : Int) : Option Int := some (a - b)
/-- `a - b` for `char32_t` (unsigned, 32 bits), then converted to `int` -/
def diffU32 (a b : Int) : Option Int := some (((a - b) + 2147483648) % 4294967296 - 2147483648)
/-- `a - b` for a 32-bit signed `wchar_t`: overflow is undefined -/
def diffW32 (a b : Int) : Option Int := if -2147483648 ≤ a - b ∧ a - b ≤ 2147483647 then some (a - b) else none

/-- `CharUpperAsASCII` (tchar.h 87-94) -/
def upper (c : Int) : Int := if 97 ≤ c ∧ c ≤ 122 then c - 97 + 65 else c

/-- the loop of `Compare` / `CompareI` (StringView.h 180-186, 227-233); `f` is the identity or `CharUpperAsASCII` -/
def cmpLoop (diff : Int → Int → Option Int) (f : Int → Int) (a b : Nat → Option Int) (i : Nat) : Nat → Option (Option Int)
  | 0 => some none
  | n + 1 =>
    match a i, b i with
    | some x, some y =>
      match diff (f x) (f y) with
      | none => none
      | some d => if d ≠ 0 then some (some d) else cmpLoop diff f a b (i + 1) n
    | _, _ => none

/-- `Compare(StringView)` (176-200), `CompareI(StringView)` (223-247) -/
def compareView (diff : Int → Int → Option Int) (f : Int → Int) (v w : View Int) : Option Int :=
  match cmpLoop diff f v.rd w.rd 0 (min v.len w.len) with
  | none => none
  | some (some d) => some d
  | some none => some (if v.len > w.len then 1 else if v.len < w.len then -1 else 0)

/-- `Compare(const char_t*)` (158-174), `CompareI(const char_t*)` (202-219); `sz` is the memory of the C string up to and including its terminator, `none` the null pointer -/
def compareSz (diff : Int → Int → Option Int) (f : Int → Int) (v : View Int) (sz : Option (List Int)) : Option Int :=
  match sz with
  | none => some (if v.len ≠ 0 then 1 else 0)
  | some sz =>
    match cmpLoop diff f v.rd (fun i => sz[i]?) 0 v.len with
    | none => none
    | some (some d) => some d
    | some none =>
      match sz[v.len]? with
      | none => none
      | some c => diff 0 c

/-! ## The text-level algorithms of `StringBase` (include/YY/Base/Strings/String.h)

These work on the text of the string; the handling of the storage is modelled in `Verif/StrHeap`. -/

omit [DecidableEq α] in
/-- `Remove(start, count)` (String.h 806-851): effect on the text -/
def sRemove (t : List α) (i n : Nat) : List α :=
  if t.length ≤ i then t
  else
    let n := min n (t.length - i)
    if n = 0 then t
    else if t.length - n = 0 then []
    else t.take i ++ (t.drop (i + n)).take (t.length - n - i)

omit [DecidableEq α] in
/-- `Slice` (String.h 853-873) -/
def sSlice (t : List α) (a b : Nat) : List α :=
  if (a + b) % W ≥ t.length then []
  else
    let t := if b ≠ 0 then sRemove t ((t.length + (W - b)) % W) b else t
    if a ≠ 0 then sRemove t 0 a else t

/-- counting loop of `TrimStart` (String.h 896-911) from position `i`, `n` characters left -/
def sTrimStartCount (s : View α) (t : List α) (i : Nat) : Nat → Option Nat
  | 0 => some i
  | n + 1 =>
    match t[i]? with
    | none => none
    | some c =>
      match indexOf s c with
      | none => none
      | some (some _) => sTrimStartCount s t (i + 1) n
      | some none => some i

/-- `TrimStart` (String.h 891-913) -/
def sTrimStart (t : List α) (s : View α) : Option (List α) :=
  if s.len = 0 then some t else (sTrimStartCount s t 0 t.length).map fun k => sRemove t 0 k

/-- loop of `TrimEnd` (String.h 920-931): the new length -/
def sTrimEndLen (s : View α) (t : List α) : Nat → Option Nat
  | 0 => some 0
  | n + 1 =>
    match t[n]? with
    | none => none
    | some c =>
      match indexOf s c with
      | none => none
      | some (some _) => sTrimEndLen s t n
      | some none => some (n + 1)

/-- `TrimEnd` (String.h 915-943), with the index used by the code (`_cchNewLength - 1`) -/
def sTrimEnd (t : List α) (s : View α) : Option (List α) :=
  if s.len = 0 then some t
  else (sTrimEndLen s t t.length).map fun k => if k = 0 then [] else sRemove t (k - 1) (t.length - k)

/-- `Trim` (String.h 945-950) -/
def sTrim (t : List α) (s : View α) : Option (List α) := (sTrimEnd t s).bind fun t => sTrimStart t s

end Verif.View
