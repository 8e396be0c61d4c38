import Verif.Model.Syntax
import Verif.Spec.Template
/-!
# Reading a template

A reference reader for templates: one pass over the bytes, without tokens, scanner states or parser
state.  It says for *every* text whether it is a template, and which expressions it contains.

Compare `Verif.Spec.Template`, which describes how templates are written.
-/

namespace Sqlf.Spec

/-- The byte is a digit `1` … `9`. -/
def digit19 (b : UInt8) : Bool := 0x31 ≤ b && b ≤ 0x39

def startsWith (p : UInt8 → Bool) : Str → Bool
  | [] => false
  | b :: _ => p b

/-- The rest of a quoted region after the opening quote `c`, with the closing quote, and what follows it.
Two quotes `''` in a region `'…'` do not close it.  `none`: not closed before the end or a NUL. -/
def region (c : UInt8) : Str → Option (Str × Str)
  | [] => none
  | [b] => if b = c then some ([b], []) else none
  | b :: b' :: t =>
    if b = 0 then none
    else if b = c then
      if c = 0x27 ∧ b' = 0x27 then (region c t).map fun r => (b :: b' :: r.1, r.2)
      else some ([b], b' :: t)
    else (region c (b' :: t)).map fun r => (b :: r.1, r.2)

/-- An argument of a call, at the start of a text, and what follows it. -/
def readArg (L : GoLib) (s : Str) : Option (CallArg × Str) :=
  if s.head? = some 0x27 then
    (region 0x27 (s.drop 1)).map fun r => (.str (unescapeQuotes r.1.dropLast), r.2)
  else
    let inWord := fun b => b ≠ 0x2C && b ≠ 0x29 && b ≠ 0
    let word := s.takeWhile inWord
    let rest := s.dropWhile inWord
    if word = lit "true" then some (.bool true, rest)
    else if word = lit "false" then some (.bool false, rest)
    else if word = lit "null" ∨ word = lit "nil" then some (.nil, rest)
    else if word = [] then none
    else (parseFloat L word).map fun x => (.num x, rest)

/-- The arguments of a call, after `(` or `,`, and what follows the `)`.  White space is skipped before
arguments, commas and the `)`; a comma may precede the `)`. -/
def readArgs (L : GoLib) : Nat → Str → Option (List CallArg × Str)
  | 0, _ => none
  | n + 1, s =>
    if (trimLeft s).head? = some 0x29 then some ([], (trimLeft s).drop 1)
    else match readArg L (trimLeft s) with
      | none => none
      | some (a, u) =>
        if (trimLeft u).head? = some 0x29 then some ([a], (trimLeft u).drop 1)
        else if (trimLeft u).head? = some 0x2C then
          (readArgs L n ((trimLeft u).drop 1)).map fun r => (a :: r.1, r.2)
        else none

/-- Reading a template: `k` bind variables were read before it, `q` tells whether one of them was a `?`.
`none`: a syntax error.  The first number bounds the number of steps. -/
def readFrom (L : GoLib) : Nat → Nat → Bool → Str → Option (List Expr)
  | 0, _, _, _ => none
  | _ + 1, _, _, [] => some []
  | n + 1, k, q, b :: t =>
    -- the text ends at a NUL
    if b = 0 then some []
    else if b = 0x24 ∨ b = 0x3F then
      -- `$$` and `??` are text
      if t.head? = some b then (readFrom L n k q (t.drop 1)).map (.plain [b, b] :: ·)
      -- `?`, which no digit may follow
      else if b = 0x3F then
        if startsWith digit19 t then none
        else (readFrom L n (k + 1) true t).map (.bindVar question (k + 1 : Nat) :: ·)
      -- `$12`, not after a `?`
      else if q = true ∨ startsWith digit19 t = false ∨ 2 ^ 64 ≤ digitsVal (t.takeWhile isDigitB) then none
      else (readFrom L n (k + 1) false (t.dropWhile isDigitB)).map
        (.bindVar dollar (intOfUint64 (digitsVal (t.takeWhile isDigitB))) :: ·)
    else if b = 0x23 then
      let name := t.takeWhile nameByte
      let r := t.dropWhile nameByte
      if name = [] then none
      -- `#name12`
      else if startsWith isDigitB r then
        match parseFloat L (r.takeWhile isDigitB) with
        | none => none
        | some x => (readFrom L n k q (r.dropWhile isDigitB)).map (.call name [.num x] :: ·)
      -- `#name(…)`
      else if r.head? = some 0x28 then
        match readArgs L (r.length + 1) (r.drop 1) with
        | none => none
        | some (args, u) => (readFrom L n k q u).map (.call name args :: ·)
      -- `#name`; a single `$`, `?` or `#` directly after it is text
      else match r with
        | [] => some [.func name]
        | m :: u =>
          if (m = 0x24 ∨ m = 0x3F) ∧ u.head? ≠ some m then
            if startsWith digit19 u then none
            else (readFrom L n k q u).map (fun es => .func name :: .plain [m] :: es)
          else if m = 0x23 then
            if startsWith nameByte u then none
            else (readFrom L n k q u).map (fun es => .func name :: .plain [m] :: es)
          else (readFrom L n k q r).map (.func name :: ·)
    else if b = 0x27 ∨ b = 0x22 ∨ b = 0x60 then
      match region b t with
      | some (s, u) => (readFrom L n k q u).map (.plain (b :: s) :: ·)
      -- a quote that is not closed: text up to the end
      | none => some [.plain (b :: t.takeWhile (· ≠ 0))]
    else (readFrom L n k q t).map (.plain [b] :: ·)

/-- The expressions of a template; `none`: not a template. -/
def readTemplate (L : GoLib) (s : Str) : Option (List Expr) := readFrom L (s.length + 1) 0 false s

end Sqlf.Spec
