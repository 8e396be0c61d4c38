import Verif.Model.GoStr
/-!
# A small semantics of SQL conditions

How SQL reads the text of a condition: `OR` binds weaker than `AND`, `AND` weaker than `NOT`;
parentheses group; keywords in quotes or parentheses do not count; the `AND` of `BETWEEN x AND y` is not
a conjunction.  Comparisons (sequences of words without operators) are true or false in an environment.
-/

namespace Sqlf.Spec

/-- Word `w` is the keyword, in upper or lower case. -/
def isKeyword (keyword : String) (w : Str) : Bool :=
  w.map (fun b => if 0x61 ≤ b ∧ b ≤ 0x7A then b - 0x20 else b) == lit keyword

/-- A complete word, if there is one. -/
def wordOf (word : Str) : List Str := if word = [] then [] else [word]

/-- The words of a text, scanned in a quoted string or not and inside `depth` parentheses; `word` is the
word that was begun.  A quoted string belongs to a word; a group in parentheses is a word. -/
def wordsFrom (quoted : Bool) (depth : Nat) (word : Str) : Str → List Str
  | [] => wordOf word
  | b :: t =>
    if quoted then wordsFrom (b != 0x27) depth (word ++ [b]) t
    else if b = 0x27 then wordsFrom true depth (word ++ [b]) t
    else if b = 0x28 then
      if depth = 0 then wordOf word ++ wordsFrom false 1 [b] t else wordsFrom false (depth + 1) (word ++ [b]) t
    else if b = 0x29 then
      if depth ≤ 1 then (word ++ [b]) :: wordsFrom false 0 [] t else wordsFrom false (depth - 1) (word ++ [b]) t
    else if b = 0x20 ∧ depth = 0 then wordOf word ++ wordsFrom false 0 [] t
    else wordsFrom false depth (word ++ [b]) t

/-- The words of a text: `a IN (1, 2) OR b = 'x y'` has the words `a`, `IN`, `(1, 2)`, `OR`, `b`, `=`, `'x y'`. -/
def wordsOf (t : Str) : List Str := wordsFrom false 0 [] t

/-- All quotes and parentheses are closed at the end of the text. -/
def closedFrom (quoted : Bool) (depth : Nat) : Str → Bool
  | [] => !quoted && depth = 0
  | b :: t =>
    if quoted then closedFrom (b != 0x27) depth t
    else if b = 0x27 then closedFrom true depth t
    else if b = 0x28 then closedFrom false (depth + 1) t
    else if b = 0x29 then closedFrom false (depth - 1) t
    else closedFrom false depth t

/-- Add a word to the first of some parts. -/
def addWord (w : Str) : List (List Str) → List (List Str)
  | [] => [[w]]
  | p :: ps => (w :: p) :: ps

/-- The parts between the keywords `OR`. -/
def disjuncts : List Str → List (List Str)
  | [] => [[]]
  | w :: ws => if isKeyword "OR" w then [] :: disjuncts ws else addWord w (disjuncts ws)

/-- The parts between the keywords `AND`; `between` if the next one belongs to `BETWEEN`. -/
def conjuncts (between : Bool) : List Str → List (List Str)
  | [] => [[]]
  | w :: ws =>
    if isKeyword "AND" w then
      if between then addWord w (conjuncts false ws) else [] :: conjuncts false ws
    else addWord w (conjuncts (between || isKeyword "BETWEEN" w) ws)

/-- No `BETWEEN` waits for its `AND`. -/
def betweenClosed (between : Bool) : List Str → Bool
  | [] => !between
  | w :: ws =>
    if isKeyword "AND" w then betweenClosed false ws
    else betweenClosed (between || isKeyword "BETWEEN" w) ws

/-- A negation, a group or a comparison. -/
def literalHolds (env : List Str → Bool) (group : Str → Bool) : List Str → Bool
  | [] => env []
  | [w] => if w.head? = some 0x28 then group (w.drop 1).dropLast else env [w]
  | w :: ws => if isKeyword "NOT" w then !literalHolds env group ws else env (w :: ws)

/-- The condition holds if the comparisons have the given values.  Groups are read up to `n` levels deep;
deeper ones count as comparisons. -/
def holds (env : List Str → Bool) : Nat → Str → Bool
  | 0, t => env (wordsOf t)
  | n + 1, t => (disjuncts (wordsOf t)).any fun d => (conjuncts false d).all (literalHolds env (holds env n))

/-- A condition that can stand in a conjunction: its quotes, parentheses and BETWEENs are closed, no `OR`
is outside of them; it begins and ends with a printable ASCII character. -/
structure AndSafe (t : Str) : Prop where
  closed : closedFrom false 0 t = true
  between : betweenClosed false (wordsOf t) = true
  noOr : ∀ w ∈ wordsOf t, isKeyword "OR" w = false
  first : ∃ b, t.head? = some b ∧ 0x20 < b ∧ b < 0x7F
  last : ∃ b, t.getLast? = some b ∧ 0x20 < b ∧ b < 0x7F

end Sqlf.Spec
