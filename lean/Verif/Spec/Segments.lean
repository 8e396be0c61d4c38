import Verif.Spec.Reader
import Verif.Spec.Refs
/-!
# Where the expressions of a template come from

A template is cut into pieces of source text, each of which stands for one expression.  The relation says
nothing about how the pieces are found; it says what a piece may look like, so that one can see what
happens to every byte of a template.
-/

namespace Sqlf.Spec

/-- `Segment afterName src e`: the piece `src` of a template stands for the expression `e`; `afterName`
tells whether the piece before it is a bare function name. -/
inductive Segment (L : GoLib) (afterName : Bool) : Str → Expr → Prop
  /-- a byte without a special meaning is copied -/
  | byte {b : UInt8} : plainByte b = true → Segment L afterName [b] (.plain [b])
  /-- `$$` and `??` are copied -/
  | doubled {b : UInt8} : b = 0x24 ∨ b = 0x3F → Segment L afterName [b, b] (.plain [b, b])
  /-- a quoted region is copied, with its quotes -/
  | quoted {c : UInt8} {t : Str} : c = 0x27 ∨ c = 0x22 ∨ c = 0x60 → region c t = some (t, []) →
      Segment L afterName (c :: t) (.plain (c :: t))
  /-- a quote that is never closed is copied with everything after it -/
  | unclosed {c : UInt8} {t : Str} : c = 0x27 ∨ c = 0x22 ∨ c = 0x60 → region c t = none →
      Segment L afterName (c :: t) (.plain (c :: t))
  /-- a single `$`, `?` or `#` directly after a bare function name is copied -/
  | sign {b : UInt8} : afterName = true → b = 0x24 ∨ b = 0x3F ∨ b = 0x23 →
      Segment L afterName [b] (.plain [b])
  /-- `?` -/
  | question {i : Int} : Segment L afterName [0x3F] (.bindVar question i)
  /-- `$12`: argument 12; numbers that are no Go `int` wrap around to negative ones -/
  | dollar {ds : Str} {i : Int} : startsWith digit19 ds = true → (∀ d ∈ ds, isDigitB d = true) →
      (digitsVal ds < 2 ^ 63 ∧ i = digitsVal ds ∨ 2 ^ 63 ≤ digitsVal ds ∧ i < 0) →
      Segment L afterName (0x24 :: ds) (.bindVar dollar i)
  /-- `#name` -/
  | func {name : Str} : isName name → Segment L afterName (0x23 :: name) (.func name)
  /-- `#name12` -/
  | short {name ds : Str} {x : Flt} : isName name → startsWith isDigitB ds = true →
      (∀ d ∈ ds, isDigitB d = true) → parseFloat L ds = some x →
      Segment L afterName (0x23 :: (name ++ ds)) (.call name [.num x])
  /-- `#name(…)`: the arguments are read up to the `)`, whatever follows it -/
  | call {name body rest : Str} {n : Nat} {args : List CallArg} : isName name →
      readArgs L n (body ++ 0x29 :: rest) = some (args, rest) →
      Segment L afterName (0x23 :: (name ++ 0x28 :: (body ++ [0x29]))) (.call name args)

/-- The expression is a bare function name. -/
def isBareName : Expr → Bool
  | .func _ => true
  | _ => false

/-- All pieces are pieces of a template; the flag tells about the piece before the first one. -/
def Segments (L : GoLib) : Bool → List (Str × Expr) → Prop
  | _, [] => True
  | a, p :: ps => Segment L a p.1 p.2 ∧ Segments L (isBareName p.2) ps

/-- A text up to its first NUL. -/
def beforeNul (s : Str) : Str := s.takeWhile (· ≠ 0)

/-- The template a list of pieces was cut from. -/
def source (ps : List (Str × Expr)) : Str := ps.flatMap (·.1)

/-- The bind variables of a clause refer to the intended arguments: `k` bind variables precede it, `q`
tells whether one of them is a `?`.  A `?` refers to the argument at its own position among all bind
variables, and no `$n` follows a `?`. -/
def Numbered (k : Nat) (q : Bool) : List Expr → Prop
  | [] => True
  | .bindVar st i :: es =>
    if st = question then i = (k + 1 : Nat) ∧ Numbered (k + 1) true es
    else q = false ∧ Numbered (k + 1) q es
  | _ :: es => Numbered k q es

end Sqlf.Spec
