import Verif.Path.Model
import Verif.View.Search
import Verif.View.Cut

/-! What the parts of a path are, stated on texts without reference to the algorithms. -/

namespace Verif.Path
open Verif.View

/-- a directory separator: `/`, on Windows also `\` -/
def Sep (win : Bool) (c : Ch) : Prop := c = ch '/' ∨ (win = true ∧ c = ch '\\')

/-- no separator in `l` -/
def Plain (win : Bool) (l : List Ch) : Prop := ∀ c ∈ l, ¬ Sep win c

/-- ASCII letter -/
def Letter (c : Ch) : Prop := ∃ x ∈ "ABCDEFGHIJKLMNOPQRSTUVWXYZabcdefghijklmnopqrstuvwxyz".toList, c = ch x
/-- hexadecimal digit -/
def HexDigit (c : Ch) : Prop := ∃ x ∈ "0123456789ABCDEFabcdef".toList, c = ch x
/-- `x` or its lower case `y` -/
def Either (x y : Char) (c : Ch) : Prop := c = ch x ∨ c = ch y

/-- `\\?\` or `\\.\` -/
def Device (win : Bool) (d : List Ch) : Prop := ∃ a b q c, d = [a, b, q, c] ∧ Sep win a ∧ Sep win b ∧ Either '?' '.' q ∧ Sep win c

/-- `C:` -/
def Drive (p : List Ch) : Prop := ∃ l, Letter l ∧ p = [l, ch ':']

def Hexes (n : Nat) (g : List Ch) : Prop := g.length = n ∧ ∀ c ∈ g, HexDigit c

/-- `Volume{01234567-89ab-cdef-0123-456789abcdef}` -/
def GuidVolume (p : List Ch) : Prop :=
  ∃ v o l u m e g1 g2 g3 g4 g5, Either 'V' 'v' v ∧ Either 'O' 'o' o ∧ Either 'L' 'l' l ∧ Either 'U' 'u' u ∧ Either 'M' 'm' m ∧ Either 'E' 'e' e ∧
    Hexes 8 g1 ∧ Hexes 4 g2 ∧ Hexes 4 g3 ∧ Hexes 4 g4 ∧ Hexes 12 g5 ∧
    p = [v, o, l, u, m, e, ch '{'] ++ g1 ++ [ch '-'] ++ g2 ++ [ch '-'] ++ g3 ++ [ch '-'] ++ g4 ++ [ch '-'] ++ g5 ++ [ch '}']

/-- `p` names a volume in front of `rest`: `C:`, `\\?\C:`, or `\\?\Volume{…}` if nothing or a separator follows -/
def Volume (p rest : List Ch) : Prop :=
  Drive p ∨ (∃ d x, Device true d ∧ p = d ++ x ∧ Drive x) ∨
  (∃ d x, Device true d ∧ p = d ++ x ∧ GuidVolume x ∧ ∀ c ∈ rest.head?, Sep true c)

/-- `pre` introduces a network path in front of `u`: `\\` not followed by `?` or `.`, on Windows also `\\?\UNC\` -/
def UncPrefix (win : Bool) (pre u : List Ch) : Prop :=
  (∃ a b, Sep win a ∧ Sep win b ∧ pre = [a, b] ∧ ∀ c ∈ u.head?, ¬ Either '?' '.' c) ∨
  (win = true ∧ ∃ d x n c s, Device win d ∧ Either 'U' 'u' x ∧ Either 'N' 'n' n ∧ Either 'C' 'c' c ∧ Sep win s ∧ pre = d ++ [x, n, c, s])

/-- one separator, no second one -/
def SingleSep (win : Bool) (t : List Ch) : Prop := ∃ s u, Sep win s ∧ t = s :: u ∧ ∀ c ∈ u.head?, ¬ Sep win c

/-- `x` is the server and the share, each with its separator, at the start of `u`; all of `u` if it has fewer than two separators -/
def Share (win : Bool) (u x : List Ch) : Prop :=
  (∃ a s b s' rest, Plain win a ∧ Sep win s ∧ Plain win b ∧ Sep win s' ∧ u = a ++ s :: (b ++ s' :: rest) ∧ x = a ++ s :: (b ++ [s'])) ∨
  (x = u ∧ (Plain win u ∨ ∃ a s b, Plain win a ∧ Sep win s ∧ Plain win b ∧ u = a ++ s :: b))

/-- `r` is the root of the path `t` -/
inductive Root (win : Bool) : List Ch → List Ch → Prop
  | current (s : Ch) (u : List Ch) : Sep win s → (∀ c ∈ u.head?, ¬ Sep win c) → Root win (s :: u) [s]
  | unc (pre u x : List Ch) : UncPrefix win pre u → Share win u x → Root win (pre ++ u) (pre ++ x)
  | volume (p rest : List Ch) : win = true → Volume p rest → (∀ c ∈ rest.head?, ¬ Sep win c) → Root win (p ++ rest) p
  | volumeSep (p rest : List Ch) (s : Ch) : win = true → Volume p (s :: rest) → Sep win s → Root win (p ++ s :: rest) (p ++ [s])

/-- the root of a path: empty if it has none -/
def RootOf (win : Bool) (t r : List Ch) : Prop := Root win t r ∨ (r = [] ∧ ∀ x, ¬ Root win t x)

/-- a path that stands for itself, whatever the current directory -/
def Absolute (win : Bool) (t : List Ch) : Prop :=
  (∃ pre u, UncPrefix win pre u ∧ t = pre ++ u) ∨
  (win = true ∧ ∃ p rest, Volume p rest ∧ t = p ++ rest) ∨
  (win = false ∧ SingleSep win t)

end Verif.Path
