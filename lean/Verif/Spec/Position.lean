import Verif.Model.Position
/-!
# Specification: where things are in a template

Lines and columns of a text, and what it means that the expressions of a template, or an error, are
at their positions.  Nothing here refers to a scanner.
-/

namespace Sqlf.Spec

open Sqlf

/-- Number of characters (Unicode code points; a byte that is not part of one counts as one) of the first `n`
bytes or more of `s`. -/
def charsAux : Nat → Str → Nat
  | 0, _ => 0
  | n + 1, s => if s = [] then 0 else charsAux n (s.drop (decodeRune s).2) + 1

/-- Number of characters of a text. -/
def chars (s : Str) : Nat := charsAux s.length s

/-- What follows the last newline of `s`. -/
def lastLine (s : Str) : Str := (s.reverse.takeWhile (· != 0x0A)).reverse

/-- The line and column of the character at byte `off` of `s`.  Lines and columns count from 1; a newline is
column 0 of the line it begins; what comes after the last character is one column further. -/
def placeAt (s : Str) (off : Nat) : Place :=
  if s[off]? = some 0x0A then ⟨(s.take off).count 0x0A + 2, 0⟩
  else ⟨(s.take off).count 0x0A + 1, chars (lastLine (s.take off)) + 1⟩

/-- The text an expression begins with in a template: all of a plain expression, the mark of a bindvar, `#` and
the name of a function. -/
def headOf : Expr → Str
  | .plain t => t
  | .bindVar s _ => if s = question then lit "?" else lit "$"
  | .call name _ => lit "#" ++ name
  | .func name => lit "#" ++ name

/-- The expressions stand in `s` one after the other, none before byte `lo`, and their positions are those of
the bytes they begin at. -/
def Located (s : Str) : Nat → List (Expr × Place) → Prop
  | _, [] => True
  | lo, (e, p) :: es =>
    ∃ off, lo ≤ off ∧ off ≤ s.length ∧ headOf e <+: s.drop off ∧ p = placeAt s off ∧
      Located s (off + (headOf e).length) es

/-- A token of the type begins what is left of a template. -/
def Begins : TokType → Str → Prop
  | .eof, s => s = [] ∨ [0] <+: s
  | .ref, s => lit "$" <+: s ∨ lit "?" <+: s
  | .hash, s => lit "#" <+: s
  | .lparen, s => lit "(" <+: s
  | .rparen, s => lit ")" <+: s
  | .comma, s => lit "," <+: s
  | .name, s => s ≠ []
  | .literal, s => s ≠ []
  | .plain, s => s ≠ []

/-- What the template is from the offset of an error on. -/
def Blames : PErr → Str → Prop
  | .unexpectedToken t, s => Begins t s
  | .wantArgs t, s => Begins t s
  | .wantRparen t, s => Begins t s
  | .mixedBindvarStyles, s => Begins .ref s
  | .wantBindvarIndex, s => Begins .literal s
  | .badUint l, s => l ≠ [] ∧ l <+: s
  | .badArgument l, s => l ≠ [] ∧ l <+: s
  | .badFloat l, s => l ≠ [] ∧ l <+: s
  | .wantIndex l, s => l ≠ [] ∧ l <+: s
  | .outOfFuel, _ => False

end Sqlf.Spec
