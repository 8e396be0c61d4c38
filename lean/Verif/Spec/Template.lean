import Verif.Model.Syntax
/-!
# Templates as lists of items

The concrete syntax of templates, written down independently of scanner and parser: what a
template consists of (`Item`), how it is written (`render`), which neighbours are allowed
(`WF`), and which expressions a reader is expected to find in it (`meaning`).
-/

namespace Sqlf.Spec

/-- A literal argument of a call. -/
inductive Lit where
  | num (n : Nat)
  | str (s : Str)
  | bool (b : Bool)
  | nil
deriving DecidableEq, Repr

/-- A piece of a template. -/
inductive Item where
  | text (s : Str)                            -- plain SQL
  | quoted (q : UInt8) (s : Str)              -- a quoted region: q s q
  | esc (b : UInt8)                           -- `$$` or `??`
  | qmark                                     -- `?`
  | dollarN (n : Nat)                         -- `$n`
  | callN (name : Str) (n : Nat)              -- `#name12`
  | call (name : Str) (args : List (Nat × Lit)) -- `#name(a, b)`, each argument after some spaces
  | func (name : Str)                         -- `#name`
deriving DecidableEq, Repr

/-! ## Writing -/

def renderLit : Lit → Str
  | .num n => natDigits n
  | .str s => [0x27] ++ escapeQuotes s ++ [0x27]
  | .bool true => lit "true"
  | .bool false => lit "false"
  | .nil => lit "nil"

def renderArg (a : Nat × Lit) : Str := List.replicate a.1 0x20 ++ renderLit a.2

/-- The arguments, separated by commas, and the closing parenthesis. -/
def renderArgs : List (Nat × Lit) → Str
  | [] => lit ")"
  | [a] => renderArg a ++ lit ")"
  | a :: b :: t => renderArg a ++ lit "," ++ renderArgs (b :: t)

def renderItem : Item → Str
  | .text s => s
  | .quoted q s => [q] ++ s ++ [q]
  | .esc b => [b, b]
  | .qmark => lit "?"
  | .dollarN n => lit "$" ++ natDigits n
  | .callN name n => lit "#" ++ name ++ natDigits n
  | .call name args => lit "#" ++ name ++ lit "(" ++ renderArgs args
  | .func name => lit "#" ++ name

def render (is : List Item) : Str := is.flatMap renderItem

/-! ## Which lists are templates -/

/-- Bytes without a special meaning: all but `$ ? # ' "` backtick and NUL. -/
def plainByte (b : UInt8) : Bool :=
  b ≠ 0x24 && b ≠ 0x3F && b ≠ 0x23 && b ≠ 0x27 && b ≠ 0x22 && b ≠ 0x60 && b ≠ 0

/-- ASCII letters and the underscore. -/
def nameByte (b : UInt8) : Bool :=
  (0x41 ≤ b && b ≤ 0x5A) || (0x61 ≤ b && b ≤ 0x7A) || b = 0x5F

def isName (s : Str) : Prop := s ≠ [] ∧ ∀ b ∈ s, nameByte b = true

/-- A literal: numbers of at most 15 digits, strings without NUL. -/
def Lit.WF : Lit → Prop
  | .num n => n < 10 ^ 15
  | .str s => 0 ∉ s
  | _ => True

/-- Conditions on a single item. -/
def Item.WF : Item → Prop
  | .text s => ∀ b ∈ s, plainByte b = true
  | .quoted q s => (q = 0x27 ∧ ∃ t, s = escapeQuotes t ∧ 0 ∉ t) ∨
      ((q = 0x22 ∨ q = 0x60) ∧ q ∉ s ∧ 0 ∉ s)
  | .esc b => b = 0x24 ∨ b = 0x3F
  | .qmark => True
  | .dollarN n => 1 ≤ n ∧ n < 2 ^ 63
  | .callN name n => isName name ∧ n < 10 ^ 15
  | .call name args => isName name ∧ ∀ a ∈ args, a.2.WF
  | .func name => isName name

/-- Conditions on an item and the text after it: a bind variable or index must not run into
further digits, a lone `?` not into another one, a closing `'` not into another one, a
function name not into anything that would continue or call it; a marker directly after a
bare function name is excluded (the parser takes it as text, see C12). -/
def Follows : Item → Str → Prop
  | .quoted q _, t => q = 0x27 → t.head? ≠ some 0x27
  | .qmark, t => ∀ b, t.head? = some b → b ≠ 0x3F ∧ ¬ (0x31 ≤ b ∧ b ≤ 0x39)
  | .dollarN _, t => ∀ b, t.head? = some b → isDigitB b = false
  | .callN _ _, t => ∀ b, t.head? = some b → isDigitB b = false
  | .func _, t => ∀ b, t.head? = some b →
      nameByte b = false ∧ isDigitB b = false ∧ b ≠ 0x28 ∧ b ≠ 0
  | _, _ => True

/-- The item after a bare function name has to be text-like; two texts in a row are one text. -/
def FollowsItem : Item → List Item → Prop
  | .text _, .text _ :: _ => False
  | .func _, .qmark :: _ => False
  | .func _, .dollarN _ :: _ => False
  | .func _, .callN _ _ :: _ => False
  | .func _, .call _ _ :: _ => False
  | .func _, .func _ :: _ => False
  | _, _ => True

/-- Well-formed templates. Empty texts are excluded so that neighbours are neighbours. -/
def WF : List Item → Prop
  | [] => True
  | i :: is => i.WF ∧ i ≠ .text [] ∧ Follows i (render is) ∧ FollowsItem i is ∧ WF is

/-! ## Reading -/

def Lit.value : Lit → CallArg
  | .num n => .num (.nat n)
  | .str s => .str s
  | .bool b => .bool b
  | .nil => .nil

/-- The expressions of a template.  `k` is the number of bind variables before it, `q` tells
whether a `?` occurred before.  `none` = a `$n` after a `?`, the one kind of mixture of bind
variable styles that the parser rejects. -/
def meaning (k : Nat) (q : Bool) : List Item → Option (List Expr)
  | [] => some []
  | .text s :: is => (meaning k q is).map (.plain s :: ·)
  | .quoted c s :: is => (meaning k q is).map (.plain ([c] ++ s ++ [c]) :: ·)
  | .esc b :: is => (meaning k q is).map (.plain [b, b] :: ·)
  | .qmark :: is => (meaning (k + 1) true is).map (.bindVar question (k + 1 : Nat) :: ·)
  | .dollarN n :: is => if q then none
      else (meaning (k + 1) q is).map (.bindVar dollar (n : Nat) :: ·)
  | .callN name n :: is => (meaning k q is).map (.call name [.num (.nat n)] :: ·)
  | .call name args :: is => (meaning k q is).map (.call name (args.map (·.2.value)) :: ·)
  | .func name :: is => (meaning k q is).map (.func name :: ·)

/-- Expression lists up to the division of plain text into pieces: neighbouring plain texts are
merged and empty ones dropped. -/
def glue : List Expr → List Expr
  | [] => []
  | .plain t :: es =>
    if t = [] then glue es
    else match glue es with
      | .plain u :: r => .plain (t ++ u) :: r
      | r => .plain t :: r
  | e :: es => e :: glue es

end Sqlf.Spec

namespace Sqlf.Spec

/-- The text of an argument list that the template ends in the middle of: no closing
parenthesis follows, a string literal is not closed, or a string literal or argument is
followed by such a text. -/
inductive OpenArgs : Str → Prop
  | noParen {u : Str} : 0x29 ∉ u → OpenArgs u
  | openString (k : Nat) {s : Str} : 0 ∉ s →
      OpenArgs (List.replicate k 0x20 ++ [0x27] ++ escapeQuotes s)
  | afterString (k : Nat) {s u : Str} : 0 ∉ s → u.head? ≠ some 0x27 → OpenArgs u →
      OpenArgs (List.replicate k 0x20 ++ [0x27] ++ escapeQuotes s ++ [0x27] ++ u)
  | afterComma {u : Str} : OpenArgs u → OpenArgs (lit "," ++ u)
  | afterArg {a : Nat × Lit} {u : Str} : a.2.WF → OpenArgs u → OpenArgs (renderArg a ++ lit "," ++ u)

end Sqlf.Spec
