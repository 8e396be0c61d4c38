import Verif.Spec.Segments
import Verif.Spec.Util
import Verif.Spec.Denote
/-!
# What a query with its arguments filled in looks like
-/

namespace Sqlf.Spec

/-- The text is the number in decimal notation: digits only, no leading zero. -/
def IsDecimal (s : Str) (n : Nat) : Prop :=
  s ≠ [] ∧ (∀ b ∈ s, isDigitB b = true) ∧ (s.head? = some 0x30 → s = [0x30]) ∧ digitsVal s = n

/-- `Encodes L layout v s`: `s` is how the value `v` is written in SQL, times in the format `layout`.  A
string is written as a literal that reads as this string.  Values of other kinds cannot be written. -/
def Encodes (L : GoLib) (layout : Str) : Val → Str → Prop
  | .nil, s => s = lit "NULL"
  | .bool _ b, s => s = if b then lit "TRUE" else lit "FALSE"
  | .int _ i, s => (0 ≤ i ∧ IsDecimal s i.toNat) ∨ (i < 0 ∧ ∃ t, s = lit "-" ++ t ∧ IsDecimal t (-i).toNat)
  | .uint _ n, s => IsDecimal s n
  | .float _ f, s => s = L.formatFloat f.bits
  | .str _ t, s => readLiteral s = some (t, [])
  | .stringer _ _ t _, s => readLiteral s = some (t, [])
  | .time id zero, s => s = lit "'" ++ (if zero then lit "0000-00-00" else L.formatTime id layout) ++ lit "'"
  -- a `driver.Valuer` is written as the value it returns
  | .valuer _ _ (some v) _, s => Encodes L layout v s
  | _, _ => False

/-- Writing the value panics: it is a nil pointer that gets its method `String` or `Value` from the type it points
to, or a `driver.Valuer` returns such a pointer. -/
def WritingPanics : Val → Prop
  | .nilRecv _ => True
  | .valuer _ _ (some v) _ => WritingPanics v
  | _ => False

/-- `Filled L layout args es s`: `s` is the clause `es` with the arguments filled in: a bind variable is
replaced by how its argument is written, text is copied.  References to functions cannot be filled. -/
def Filled (L : GoLib) (layout : Str) (args : List Val) : List Expr → Str → Prop
  | [], s => s = []
  | .plain t :: es, s => ∃ r, s = t ++ r ∧ Filled L layout args es r
  | .bindVar _ i :: es, s => 1 ≤ i ∧ ∃ v x r, args[(i - 1).toNat]? = some v ∧ Encodes L layout v x ∧
      s = x ++ r ∧ Filled L layout args es r
  | _ :: _, _ => False

/-- Filling in the clause gets to an expression with `P`: everything before it can be filled in. -/
def GetsTo (L : GoLib) (layout : Str) (args : List Val) (P : Expr → Prop) (es : List Expr) : Prop :=
  ∃ before e after s, es = before ++ e :: after ∧ Filled L layout args before s ∧ P e

/-- A bind variable without argument. -/
def NoArgument (args : List Val) (e : Expr) : Prop := ∃ st i, e = .bindVar st i ∧ ¬ (1 ≤ i ∧ i ≤ args.length)

/-- A bind variable without argument, or for an argument that is such a nil pointer. -/
def FillingPanics (args : List Val) (e : Expr) : Prop :=
  NoArgument args e ∨ ∃ st i v, e = .bindVar st i ∧ 1 ≤ i ∧ args[(i - 1).toNat]? = some v ∧ WritingPanics v

/-- A function, or a bind variable for an argument that cannot be written in SQL. -/
def CannotFill (L : GoLib) (layout : Str) (args : List Val) : Expr → Prop
  | .plain _ => False
  | .bindVar _ i => 1 ≤ i ∧ ∃ v, args[(i - 1).toNat]? = some v ∧ ¬ WritingPanics v ∧ ∀ x, ¬ Encodes L layout v x
  | _ => True

/-- How a piece of a query with its arguments filled in is written. -/
def FilledPiece (L : GoLib) (layout : Str) (args : List Val) (p : Str × Expr) (x : Str) : Prop :=
  (∃ t, p.2 = .plain t ∧ x = p.1) ∨
  (∃ st i v, p.2 = .bindVar st i ∧ 1 ≤ i ∧ args[(i - 1).toNat]? = some v ∧ Encodes L layout v x)

end Sqlf.Spec

namespace Sqlf.Spec

/-- A piece of a query without markers of its own. -/
inductive Piece where
  | text (s : Str)               -- plain SQL
  | quoted (q : UInt8) (s : Str) -- a quoted region: q s q
  | esc (b : UInt8)              -- `$$` or `??`
  | mark (k : Nat)               -- the placeholder of the `k`-th committed value
deriving DecidableEq, Repr

/-- The document a list of pieces stands for. -/
def docOf : List Piece → Doc
  | [] => []
  | .text s :: ps => Doc.ofStr s ++ docOf ps
  | .quoted q s :: ps => Doc.ofStr ([q] ++ s ++ [q]) ++ docOf ps
  | .esc b :: ps => Doc.ofStr [b, b] ++ docOf ps
  | .mark k :: ps => .bind k :: docOf ps

/-- What must not follow a piece: text is not divided, a region `'…'` does not run into another one, and
no `?`, digit or placeholder directly follows a placeholder. -/
def Piece.before : Piece → List Piece → Prop
  | .text _, .text _ :: _ => False
  | .quoted 0x27 _, .quoted 0x27 _ :: _ => False
  | .mark _, .mark _ :: _ => False
  | .mark _, .esc 0x3F :: _ => False
  | .mark _, .text (b :: _) :: _ => isDigitB b = false
  | _, _ => True

/-- Conditions on a single piece: text has no markers and quotes. -/
def Piece.ok : Piece → Prop
  | .text s => s ≠ [] ∧ ∀ b ∈ s, plainByte b = true
  | .quoted q s => (q = 0x27 ∧ ∃ t, s = escapeQuotes t ∧ 0 ∉ t) ∨ ((q = 0x22 ∨ q = 0x60) ∧ q ∉ s ∧ 0 ∉ s)
  | .esc b => b = 0x24 ∨ b = 0x3F
  | .mark _ => True

def Pieces : List Piece → Prop
  | [] => True
  | p :: ps => p.ok ∧ p.before ps ∧ Pieces ps

/-- A query in which no text can be taken for a marker, wherever its placeholders are `?` or `$n`. -/
def NoMarkers (d : Doc) : Prop := ∃ ps, Pieces ps ∧ docOf ps = d

end Sqlf.Spec
