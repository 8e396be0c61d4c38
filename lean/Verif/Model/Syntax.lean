import Verif.Model.GoStr
/-!
# package syntax: lexer, scanner, parser

Model of syntax/lexer.go, syntax/scanner.go, syntax/token.go, syntax/nodes.go and
syntax/parser.go.  Simplifications (whole file): line/column positions and byte offsets of
tokens and nodes are left out (`Verif.Model.Position` has them); error values
are structured instead of formatted strings; the scanner runs to completion before the parser
starts instead of on demand, which is unobservable because the scanner does not depend on the
parser.
-/

namespace Sqlf

/-! ## ASCII runes used by the scanner -/

def rDollar : Rune := 0x24
def rQuestion : Rune := 0x3F
def rHash : Rune := 0x23
def rSQuote : Rune := 0x27
def rDQuote : Rune := 0x22
def rBacktick : Rune := 0x60
def rLparen : Rune := 0x28
def rRparen : Rune := 0x29
def rComma : Rune := 0x2C

/-! ## lexer.go -/

/-- `lexerHelper` (syntax/lexer.go:12-19).  `tok` is `input[start.offset:current.offset]` and
`rest` is `input[current.offset:]`; `rune` and `width` are functions of `rest` and `eof`
(`Next` always recomputes them from the new offset).  `eof` distinguishes the two states the
Go lexer has at the end of the input: just arrived there (`rune` is `RuneError`, the result of
decoding `""`) and `Next` called once more (`rune` is `EOF`). -/
structure Lex where
  tok : Str
  rest : Str
  eof : Bool
deriving DecidableEq, Repr

namespace Lex

/-- field `rune` (syntax/lexer.go:17, set in `Next`, lines 43-60) -/
def rune (l : Lex) : Rune :=
  match l.rest with
  | [] => if l.eof then eofRune else runeError
  | _ :: _ => (decodeRune l.rest).1

/-- field `width` (syntax/lexer.go:18, set in `Next`, lines 43-60) -/
def width (l : Lex) : Nat := (decodeRune l.rest).2

/-- `newLexerHelper` (syntax/lexer.go:27-34) -/
def init (input : Str) : Lex := { tok := [], rest := input, eof := input.isEmpty }

/-- `StartToken` (syntax/lexer.go:38-40) -/
def startToken (l : Lex) : Lex := { l with tok := [] }

/-- `Next` (syntax/lexer.go:43-60) -/
def next (l : Lex) : Lex :=
  match l.rest with
  | [] => { l with eof := true }
  | _ :: _ => { l with tok := l.tok ++ l.rest.take l.width, rest := l.rest.drop l.width }

/-- `Peek` (syntax/lexer.go:64-71) -/
def peek (l : Lex) : Rune :=
  match l.rest.drop l.width with
  | [] => eofRune
  | b :: t => (decodeRune (b :: t)).1

/-- `SkipWhitespace` (syntax/lexer.go:74-84, with `IsEOF` and `IsWhitespace`, 87-94; `IsHex`, 114-116, is
not used); fuel bounds the number of runes skipped. -/
def skipWhitespaceAux : Nat → Lex → Lex
  | 0, l => l
  | n + 1, l =>
    if !isSpace l.rune then l
    else
      let l := l.next
      if l.rune = eofRune then l else skipWhitespaceAux n l

def skipWhitespace (l : Lex) : Lex := skipWhitespaceAux (l.rest.length + 2) l

/-- `Advanced` (syntax/lexer.go:97-99) -/
def advanced (l : Lex) : Bool := !l.tok.isEmpty

/-- `Lower` (syntax/lexer.go:102-104): `('a' - 'A') | rune` -/
def lower (l : Lex) : Rune := 0x20 ||| l.rune

/-- `IsLetter` (syntax/lexer.go:106-108) -/
def isLetter (l : Lex) : Bool := (0x61 ≤ l.lower && l.lower ≤ 0x7A) || l.rune == 0x5F

/-- `IsDecimal` (syntax/lexer.go:110-112) -/
def isDecimal (l : Lex) : Bool := 0x30 ≤ l.rune && l.rune ≤ 0x39

end Lex

/-! ## token.go -/

/-- `TokenType` constants (syntax/token.go:16-29) -/
inductive TokType where
  | eof | ref | name | literal | plain | hash | lparen | rparen | comma
deriving DecidableEq, Repr

/-- `litKind` (syntax/token.go:31-38) -/
inductive LitKind where
  | number | string | bool | nil
deriving DecidableEq, Repr

/-- `token` (syntax/token.go:3-11), without offsets and positions -/
structure Token where
  typ : TokType
  kind : LitKind
  bad : Bool
  lit : Str
deriving DecidableEq, Repr

/-! ## scanner.go -/

/-- The scan functions a scanner can be in (`scanFn` values, syntax/scanner.go:6) -/
inductive Scan where
  | plain | ref | index | quotedPlain | func | funcName | funcArgs | funcArgQuoted
deriving DecidableEq, Repr

/-- `emitToken` (syntax/scanner.go:25-35) -/
def Lex.emit (l : Lex) (t : TokType) (k : LitKind) (bad : Bool) : Token :=
  { typ := t, kind := k, bad := bad, lit := l.tok }

/-- Where the loop of `scanPlain` stopped. -/
inductive PlainStop where
  | ref | func | quoted | eof
deriving DecidableEq, Repr

/-- The `for` loop of `scanPlain` (syntax/scanner.go:52-71).  A doubled `$$` or `??` is
skipped. Fuel: see `scanPlain`. -/
def plainLoop : Nat → Lex → Lex × PlainStop
  | 0, l => (l, .eof)
  | n + 1, l =>
    let r := l.rune
    if r = eofRune then (l, .eof)
    else if r = rDollar ∨ r = rQuestion then
      if l.peek = r then plainLoop n l.next.next else (l, .ref)
    else if r = rHash then (l, .func)
    else if r = rSQuote ∨ r = rDQuote ∨ r = rBacktick then (l, .quoted)
    else plainLoop n l.next

/-- One loop iteration consumes at least one byte or turns the end state into EOF. -/
def Lex.fuel (l : Lex) : Nat := l.rest.length + 2

/-- Result of a scan function: lexer, emitted tokens, next scan function (`none` = nil). -/
abbrev ScanRes := Lex × List Token × Option Scan

/-- `scanPlain` (syntax/scanner.go:50-79) -/
def scanPlain (l : Lex) : ScanRes :=
  let l := l.startToken
  let (l, stop) := plainLoop l.fuel l
  let pending : List Token := if l.advanced then [l.emit .plain .string false] else []
  match stop with
  | .ref => (l, pending, some .ref)
  | .func => (l, pending, some .func)
  | .quoted => (l, [], some .quotedPlain)
  | .eof =>
    if l.advanced then (l, pending, some .plain)
    else (l, [l.emit .eof .string false], none)

/-- `scanRef` (syntax/scanner.go:81-86) -/
def scanRef (l : Lex) : ScanRes :=
  let l := l.startToken.next
  (l, [l.emit .ref .string false], some .index)

/-- The digit loop of `scanIndex` (syntax/scanner.go:92-96) -/
def digitsLoop : Nat → Lex → Lex
  | 0, l => l
  | n + 1, l =>
    if l.rune = eofRune then l
    else if l.rune < 0x30 ∨ l.rune > 0x39 then l
    else digitsLoop n l.next

/-- `scanIndex` (syntax/scanner.go:88-100) -/
def scanIndex (l : Lex) : ScanRes :=
  if 0x31 ≤ l.rune ∧ l.rune ≤ 0x39 then
    let l := l.startToken
    let l := digitsLoop l.fuel l
    (l, [l.emit .literal .number false], some .plain)
  else (l, [], some .plain)

/-- The loop shared by `scanQuotedPlain` and `scanFuncArgQuoted` (syntax/scanner.go:104-114,
196-206), entered after the first `s.Next()`.  `true` = closing quote found (and consumed). -/
def quotedLoop (quoter : Rune) : Nat → Lex → Lex × Bool
  | 0, l => (l, false)
  | n + 1, l =>
    let r := l.rune
    if r = eofRune then (l, false)
    else if r = quoter then
      if quoter = rSQuote ∧ l.peek = rSQuote then quotedLoop quoter n l.next.next
      else (l.next, true)
    else quotedLoop quoter n l.next

/-- `scanQuotedPlain` (syntax/scanner.go:102-118); the token began in `scanPlain` -/
def scanQuotedPlain (l : Lex) : ScanRes :=
  let quoter := l.rune
  let l := l.next
  let (l, closed) := quotedLoop quoter l.fuel l
  (l, [l.emit .plain .string (!closed)], some .plain)

/-- `scanFunc` (syntax/scanner.go:120-125) -/
def scanFunc (l : Lex) : ScanRes :=
  let l := l.startToken.next
  (l, [l.emit .hash .string false], some .funcName)

/-- `for s.IsLetter() { s.Next() }` (syntax/scanner.go:129-131) -/
def lettersLoop : Nat → Lex → Lex
  | 0, l => l
  | n + 1, l => if l.isLetter then lettersLoop n l.next else l

/-- `for s.IsDecimal() { s.Next() }` (syntax/scanner.go:137-139) -/
def decimalsLoop : Nat → Lex → Lex
  | 0, l => l
  | n + 1, l => if l.isDecimal then decimalsLoop n l.next else l

/-- `scanFuncName` (syntax/scanner.go:127-150) -/
def scanFuncName (l : Lex) : ScanRes :=
  let l := l.startToken
  let l := lettersLoop l.fuel l
  if !l.advanced then (l, [], some .plain)
  else
    let nameTok := l.emit .name .string false
    let l := l.startToken
    let l := decimalsLoop l.fuel l
    if l.advanced then (l, [nameTok, l.emit .literal .number false], some .plain)
    else if l.rune = rLparen then
      let l := l.next
      (l, [nameTok, l.emit .lparen .string false], some .funcArgs)
    else (l, [nameTok], some .plain)

/-- `for r != EOF && r != ',' && r != ')' { r = s.Next() }` (syntax/scanner.go:169-171) -/
def argLoop : Nat → Lex → Lex
  | 0, l => l
  | n + 1, l =>
    if l.rune ≠ eofRune ∧ l.rune ≠ rComma ∧ l.rune ≠ rRparen then argLoop n l.next else l

/-- `scanFuncArgs` (syntax/scanner.go:152-192) -/
def scanFuncArgs (L : GoLib) (l : Lex) : ScanRes :=
  let l := l.skipWhitespace.startToken
  let r := l.rune
  if r = eofRune then (l, [], some .plain)
  else if r = rComma then
    let l := l.next
    (l, [l.emit .comma .string false], some .funcArgs)
  else if r = rRparen then
    let l := l.next
    (l, [l.emit .rparen .string false], some .plain)
  else if r = rSQuote then (l, [], some .funcArgQuoted)
  else
    let l := argLoop l.fuel l
    if l.advanced then
      if l.tok = lit "true" ∨ l.tok = lit "false" then
        (l, [l.emit .literal .bool false], some .funcArgs)
      else if l.tok = lit "null" ∨ l.tok = lit "nil" then
        (l, [l.emit .literal .nil false], some .funcArgs)
      else if (parseFloat L l.tok).isSome then
        (l, [l.emit .literal .number false], some .funcArgs)
      else (l, [l.emit .name .string true], some .funcArgs)
    else (l, [], some .funcArgs)

/-- `scanFuncArgQuoted` (syntax/scanner.go:194-210); the token began in `scanFuncArgs` -/
def scanFuncArgQuoted (l : Lex) : ScanRes :=
  let quoter := l.rune
  let l := l.next
  let (l, closed) := quotedLoop quoter l.fuel l
  if closed then (l, [l.emit .literal .string false], some .funcArgs)
  else (l, [l.emit .literal .string true], some .plain)

/-- Calling the current scan function. -/
def scanStep (L : GoLib) : Scan → Lex → ScanRes
  | .plain => scanPlain
  | .ref => scanRef
  | .index => scanIndex
  | .quotedPlain => scanQuotedPlain
  | .func => scanFunc
  | .funcName => scanFuncName
  | .funcArgs => scanFuncArgs L
  | .funcArgQuoted => scanFuncArgQuoted

/-- Running the scanner to completion (`NextToken`, syntax/scanner.go:38-48, called until it
returns false).  `none` = fuel exhausted; `scanAll` passes enough fuel (see
`Verif.Proofs.Scan`). -/
def scanRun (L : GoLib) : Nat → Scan → Lex → Option (List Token)
  | 0, _, _ => none
  | n + 1, st, l =>
    match scanStep L st l with
    | (_, toks, none) => some toks
    | (l', toks, some st') => (scanRun L n st' l').map (toks ++ ·)

/-- All tokens of `input` (`newScanner`, syntax/scanner.go:17-23, then `NextToken` until
false). -/
def scanAll (L : GoLib) (input : Str) : Option (List Token) :=
  scanRun L (3 * (input.length + 1) + 3) .plain (Lex.init input)

/-! ## nodes.go -/

/-- `BindVarStyle` (syntax/nodes.go:41): a Go `int` type -/
abbrev Style := Int
/-- `Dollar` (syntax/nodes.go:45) is `iota`, i.e. 0 -/
def dollar : Style := 0
/-- `Question` (syntax/nodes.go:47) -/
def question : Style := 1

/-- An argument of a preprocessing function call (syntax/nodes.go:53: `float64`, `string`,
`bool`, `nil`; and the `int` that `#join` supplies, func_builtin.go:70) -/
inductive CallArg where
  | nil
  | bool (b : Bool)
  | num (x : Flt)
  | int (i : Int)
  | str (s : Str)
deriving DecidableEq, Repr

/-- `Expr` and its implementations (syntax/nodes.go:9-67), without positions -/
inductive Expr where
  | plain (text : Str)
  | bindVar (style : Style) (index : Int)
  | call (name : Str) (args : List CallArg)
  | func (name : Str)
deriving DecidableEq, Repr

/-! ## parser.go -/

/-- Syntax errors (syntax/parser.go), structured -/
inductive PErr where
  | unexpectedToken (t : TokType)      -- parser.go:33, 74
  | mixedBindvarStyles                 -- parser.go:91, 100
  | wantBindvarIndex                   -- parser.go:109
  | badUint (lit : Str)                -- parser.go:113
  | wantArgs (t : TokType)             -- parser.go:137
  | badArgument (lit : Str)            -- parser.go:142
  | badFloat (lit : Str)               -- parser.go:152, 182
  | wantRparen (t : TokType)           -- parser.go:166
  | wantIndex (lit : Str)              -- parser.go:178
  | outOfFuel                          -- model artefact; unreachable (`parse_ne_outOfFuel`)
deriving DecidableEq, Repr

/-- `parser` (syntax/parser.go:20-28): remaining tokens, current token, bindvar state.
`bindVarStyle` starts as Go's zero value, which *is* `Dollar`. -/
structure PState where
  toks : List Token
  cur : Token
  bindVarIndex : Nat
  bindVarStyle : Style
deriving DecidableEq, Repr

/-- `NextToken` as the parser sees it: at the end the current token stays (scanner.go:38-48).  `got`
(syntax/parser.go:39-45) is a test of the current token followed by this. -/
def PState.next (p : PState) : PState :=
  match p.toks with
  | [] => p
  | t :: ts => { p with toks := ts, cur := t }

/-- `strconv.ParseUint(lit, 10, 64)` on a string of ASCII digits: error above 2^64-1. -/
def parseUint (s : Str) : Option Nat :=
  if s.isEmpty || !s.all isDigitB then none
  else if digitsVal s < 2 ^ 64 then some (digitsVal s) else none

/-- `int(val)` for a `uint64` (syntax/parser.go:115): two's complement. -/
def intOfUint64 (n : Nat) : Int := if n < 2 ^ 63 then n else (n : Int) - 2 ^ 64

/-- `bindVarExpr` (syntax/parser.go:80-122) -/
def bindVarExpr (p : PState) : Except PErr (Expr × PState) :=
  let t : Style := if p.cur.lit = lit "$" then dollar
                   else if p.cur.lit = lit "?" then question else 0
  let p := if p.cur.lit = lit "$" ∨ p.cur.lit = lit "?" then
      { p with bindVarIndex := p.bindVarIndex + 1
               bindVarStyle := if p.bindVarStyle = 0 then t else p.bindVarStyle }
    else p
  if (p.cur.lit = lit "$" ∨ p.cur.lit = lit "?") ∧ p.bindVarStyle ≠ t then
    .error .mixedBindvarStyles
  else if t ≠ question then
    let p := p.next
    if p.cur.typ ≠ .literal then .error (.unexpectedToken p.cur.typ)
    else if p.cur.kind ≠ .number then .error .wantBindvarIndex
    else match parseUint p.cur.lit with
      | none => .error (.badUint p.cur.lit)
      | some v => .ok (.bindVar t (intOfUint64 v), p)
  else .ok (.bindVar t p.bindVarIndex, p)

/-- The argument loop of `funcExpr` (syntax/parser.go:134-164), including the check for `)`
after it (165-167). `acc` is `args`. -/
def argsLoop (L : GoLib) : Nat → PState → List CallArg → Except PErr (List CallArg × PState)
  | 0, _, _ => .error .outOfFuel
  | n + 1, p, acc =>
    let p := p.next
    if p.cur.typ ≠ .literal then
      if p.cur.typ ≠ .rparen then .error (.wantArgs p.cur.typ) else .ok (acc, p)
    else if p.cur.bad then .error (.badArgument p.cur.lit)
    else
      let arg : Except PErr CallArg :=
        match p.cur.kind with
        | .nil => .ok .nil
        | .bool => .ok (.bool (p.cur.lit = lit "true"))
        | .number =>
          match parseFloat L p.cur.lit with
          | none => .error (.badFloat p.cur.lit)
          | some x => .ok (.num x)
        | .string => .ok (.str (unescapeQuotes (p.cur.lit.drop 1).dropLast))
      match arg with
      | .error e => .error e
      | .ok a =>
        let acc := acc ++ [a]
        let p := p.next
        if p.cur.typ = .comma then argsLoop L n p acc
        else if p.cur.typ ≠ .rparen then .error (.wantRparen p.cur.typ)
        else .ok (acc, p)

/-- `funcExpr` (syntax/parser.go:124-208): the expressions it appends -/
def funcExpr (L : GoLib) (p : PState) : Except PErr (List Expr × PState) :=
  let p := p.next
  if p.cur.typ ≠ .name then .error (.unexpectedToken p.cur.typ)
  else
    let name := p.cur.lit
    let p := p.next
    match p.cur.typ with
    | .lparen =>
      match argsLoop L (p.toks.length + 2) p [] with
      | .error e => .error e
      | .ok (args, p) => .ok ([.call name args], p)
    | .literal =>
      if p.cur.kind ≠ .number then .error (.wantIndex p.cur.lit)
      else match parseFloat L p.cur.lit with
        | none => .error (.badFloat p.cur.lit)
        | some x => .ok ([.call name [.num x]], p)
    | _ => .ok ([.func name, .plain p.cur.lit], p)

/-- `(*parser).Parse` (syntax/parser.go:51-78): the loop over the tokens -/
def parseLoop (L : GoLib) : Nat → PState → List Expr → Except PErr (List Expr)
  | 0, _, _ => .error .outOfFuel
  | n + 1, p, acc =>
    match p.toks with
    | [] => .ok acc
    | _ :: _ =>
      let p := p.next
      match p.cur.typ with
      | .eof => parseLoop L n p acc
      | .ref =>
        match bindVarExpr p with
        | .error e => .error e
        | .ok (d, p) => parseLoop L n p (acc ++ [d])
      | .hash =>
        match funcExpr L p with
        | .error e => .error e
        | .ok (ds, p) => parseLoop L n p (acc ++ ds)
      | .plain => parseLoop L n p (acc ++ [.plain p.cur.lit])
      | t => .error (.unexpectedToken t)

/-- The parser run on a token list (fresh parser state). -/
def parseTokens (L : GoLib) (toks : List Token) : Except PErr (List Expr) :=
  parseLoop L (toks.length + 1)
    { toks := toks, cur := ⟨.eof, .string, false, []⟩, bindVarIndex := 0, bindVarStyle := 0 } []

/-- `syntax.Parse` (syntax/parser.go:10-18) -/
def parse (L : GoLib) (input : Str) : Except PErr (List Expr) :=
  match scanAll L input with
  | none => .error .outOfFuel
  | some toks => parseTokens L toks

end Sqlf
