import Verif.Spec.Util
import Verif.Spec.Template
/-!
# What a query says outside of its string literals

A reader of SQL text that tells string literals `'…'` from the rest.  It knows nothing about placeholders and
about how texts are quoted.
-/

namespace Sqlf.Spec

/-- Where the reader is. -/
inductive Mode where
  | sql                    -- outside of literals
  | literal                -- in a literal `'…'`
  | quote                  -- after a `'` in a literal: its end, or the first half of a `''`
  | name (q : UInt8)       -- in a region `"…"` or `` `…` ``
deriving DecidableEq

/-- Where the reader is after another byte. -/
def Mode.next : Mode → UInt8 → Mode
  | .literal, b => if b = 0x27 then .quote else .literal
  | .name q, b => if b = q then .sql else .name q
  | .sql, b | .quote, b => if b = 0x27 then .literal else if b = 0x22 ∨ b = 0x60 then .name b else .sql

/-- What is left of a text, without the contents of its literals; of a literal, `''` is left. -/
def outsideFrom : Mode → Str → Str
  | .quote, [] => [0x27]
  | _, [] => []
  | .literal, b :: t => outsideFrom (Mode.literal.next b) t
  | .quote, b :: t => (if b = 0x27 then [] else [0x27, b]) ++ outsideFrom (Mode.quote.next b) t
  | m, b :: t => b :: outsideFrom (m.next b) t

def outsideLiterals (s : Str) : Str := outsideFrom .sql s

/-- Two lists of values that differ in texts only: strings, Stringers, or Valuers that give one of these. -/
def SameButTexts (vs ws : List Val) : Prop :=
  vs.length = ws.length ∧
  ∀ (i : Nat) v w, vs[i]? = some v → ws[i]? = some w → v = w ∨ (textOf v ≠ none ∧ textOf w ≠ none)

/-- Times are written without `'`, and floats without quotes, markers and NUL.  So it is for the default format of
times, and for `%f`. -/
def PlainFormats (L : GoLib) (layout : Str) : Prop :=
  (∀ id, 0x27 ∉ L.formatTime id layout) ∧ ∀ x, ∀ b ∈ L.formatFloat x, plainByte b = true

end Sqlf.Spec
