import Verif.Proofs.PositionParse
import Verif.KernelRfl
/-!
# C87: positions
-/

namespace Sqlf.Props

open Sqlf Spec

/-- **C87**, the model: the parser with positions returns the expressions, and the errors, of the parser without,
for every template.  So every theorem about `parse` is one about the expressions that have the positions below. -/
theorem C87_positions_are_extra (L : GoLib) (s : Str) :
    (∀ es, parse L s = .ok es ↔ ∃ xs, gparse L s = .ok xs ∧ xs.map (·.1) = es) ∧
    (∀ e, parse L s = .error e ↔ ∃ off, gparse L s = .error (off, e)) := by
  have h := gparse_erase L s
  rw [h]
  cases gparse L s with
  | ok xs => simp [dropPlaces]
  | error e =>
    obtain ⟨off, e⟩ := e
    simp [dropPlaces]

/-- **C87**, expressions: the expressions of a template that is accepted stand in it in their order, without
overlap, each begins with its text (a plain expression is all its text), and its position is the line and column
of the byte it begins at. -/
theorem C87_expressions_are_located (L : GoLib) (s : Str) (xs : List (Expr × Place)) (h : gparse L s = .ok xs) :
    Located s 0 xs := by
  have := gparse_ok L s
  rw [h] at this
  exact this

/-- **C87**, errors: the offset a syntax error begins with is in the template, and there is what the error is
about: the text it quotes, the token it did not expect, or the end of the template. -/
theorem C87_errors_are_located (L : GoLib) (s : Str) (off : Nat) (e : PErr) (h : gparse L s = .error (off, e)) :
    off ≤ s.length ∧ Blames e (s.drop off) := by
  have h1 := gparse_ok L s
  rw [h] at h1
  refine ⟨h1.1, ?_⟩
  rcases h1.2 with h2 | h2
  · exfalso
    dsimp only at h2
    subst h2
    have := gparse_erase L s
    rw [h] at this
    exact parse_ne_outOfFuel L s this
  · exact h2

/-- `SELECT é, $1⏎FROM #table('t')⏎WHERE x = #f`: two lines, a character of two bytes, each kind of expression but `?` -/
def located : Str :=
  lit "SELECT " ++ [0xC3, 0xA9] ++ lit ", $1" ++ [0x0A] ++ lit "FROM #table('t')" ++ [0x0A] ++ lit "WHERE x = #f"

example (L : GoLib) : gparse L located =
    .ok [(.plain (lit "SELECT " ++ [0xC3, 0xA9] ++ lit ", "), ⟨1, 1⟩), (.bindVar dollar 1, ⟨1, 11⟩),
      (.plain ([0x0A] ++ lit "FROM "), ⟨2, 0⟩), (.call (lit "table") [.str (lit "t")], ⟨2, 6⟩),
      (.plain ([0x0A] ++ lit "WHERE x = "), ⟨3, 0⟩), (.func (lit "f"), ⟨3, 11⟩), (.plain [], ⟨3, 13⟩)] := by
  kernel_rfl

/-- A mark without its number, on the second line: the error is at the comma after it. -/
example (L : GoLib) : gparse L (lit "a = $1," ++ [0x0A] ++ lit "b = $,") =
    .error (13, .unexpectedToken .plain) := by kernel_rfl

/-- A number too large, an argument that is not closed, a call that is not closed. -/
example (L : GoLib) : gparse L (lit "a $99999999999999999999") = .error (3, .badUint (lit "99999999999999999999")) ∧
    gparse L (lit "#f('a, 1)") = .error (3, .badArgument (lit "'a, 1)")) ∧
    gparse L (lit "#f('a'") = .error (6, .wantRparen .eof) ∧
    gparse L (lit "? $1") = .error (2, .mixedBindvarStyles) := by
  refine ⟨by kernel_rfl, by kernel_rfl, by kernel_rfl, by kernel_rfl⟩

end Sqlf.Props
