import Verif.Model.Syntax
/-!
# package syntax with positions

The lexer, scanner and parser of `Verif.Model.Syntax` once more, this time with the fields that file
leaves out: byte offsets, lines and columns (syntax/pos.go, lexer.go, token.go), the offset in
syntax errors (parser.go:47-49) and the positions of nodes (nodes.go).  The lexer is the one of
lexer.go, with offsets into the input, not an abstraction of it.  As there, the scanner runs to
completion before the parser starts, and loops carry fuel.
-/

namespace Sqlf

/-! ## pos.go and lexer.go -/

/-- `Pos` (syntax/pos.go:6-17, with `NewPos`, `Line` and `Col`).  Go's `uint` as a natural number: a template is too short to overflow it. -/
structure Place where
  line : Nat
  col : Nat
deriving DecidableEq, Repr

/-- `Pos.String` (syntax/pos.go:19-27) -/
def Place.text (p : Place) : Str :=
  if p.line = 0 then lit "<unknown position>"
  else if p.col = 0 then natDigits p.line
  else natDigits p.line ++ lit ":" ++ natDigits p.col

/-- `pos` (syntax/lexer.go:21-24) -/
structure GPos where
  offset : Nat
  place : Place
deriving DecidableEq, Repr

/-- `lexerHelper` (syntax/lexer.go:12-19) -/
structure GLex where
  input : Str
  start : GPos
  current : GPos
  rune : Rune
  width : Nat
deriving DecidableEq, Repr

namespace GLex

/-- `Next` (syntax/lexer.go:43-60) -/
def next (l : GLex) : GLex :=
  if l.current.offset ≥ l.input.length then { l with width := 0, rune := eofRune }
  else
    let offset := l.current.offset + l.width
    let (rune, width) := decodeRune (l.input.drop offset)
    let place : Place :=
      if rune = 0x0A then ⟨l.current.place.line + 1, 0⟩ else ⟨l.current.place.line, l.current.place.col + 1⟩
    { l with current := ⟨offset, place⟩, rune := rune, width := width }

/-- `newLexerHelper` (syntax/lexer.go:27-34); fields not set in Go are zero -/
def init (input : Str) : GLex :=
  next { input := input, start := ⟨0, ⟨0, 0⟩⟩, current := ⟨0, ⟨1, 0⟩⟩, rune := 0, width := 0 }

/-- `StartToken` (syntax/lexer.go:38-40) -/
def startToken (l : GLex) : GLex := { l with start := l.current }

/-- `Peek` (syntax/lexer.go:64-71) -/
def peek (l : GLex) : Rune :=
  let next := l.current.offset + l.width
  if next ≥ l.input.length then eofRune else (decodeRune (l.input.drop next)).1

/-- Fuel for loops: one iteration consumes at least one byte or turns the end state into EOF. -/
def fuel (l : GLex) : Nat := (l.input.length - l.current.offset) + 2

/-- `SkipWhitespace` (syntax/lexer.go:74-84) -/
def skipWhitespaceAux : Nat → GLex → GLex
  | 0, l => l
  | n + 1, l =>
    if !isSpace l.rune then l
    else
      let l := l.next
      if l.rune = eofRune then l else skipWhitespaceAux n l

/-- `SkipWhitespace` (syntax/lexer.go:74-84) -/
def skipWhitespace (l : GLex) : GLex := skipWhitespaceAux l.fuel l

/-- `Advanced` (syntax/lexer.go:97-99) -/
def advanced (l : GLex) : Bool := l.current.offset > l.start.offset

/-- `Lower` (syntax/lexer.go:102-104) -/
def lower (l : GLex) : Rune := 0x20 ||| l.rune

/-- `IsLetter` (syntax/lexer.go:106-108) -/
def isLetter (l : GLex) : Bool := (0x61 ≤ l.lower && l.lower ≤ 0x7A) || l.rune == 0x5F

/-- `IsDecimal` (syntax/lexer.go:110-112) -/
def isDecimal (l : GLex) : Bool := 0x30 ≤ l.rune && l.rune ≤ 0x39

/-- `input[start.offset:current.offset]` -/
def text (l : GLex) : Str := (l.input.take l.current.offset).drop l.start.offset

end GLex

/-! ## token.go and scanner.go -/

/-- `token` (syntax/token.go:3-11) -/
structure GToken where
  typ : TokType
  lit : Str
  bad : Bool
  kind : LitKind
  start : Nat
  end_ : Nat
  pos : Place
deriving DecidableEq, Repr

/-- `emitToken` (syntax/scanner.go:25-35) -/
def GLex.emit (l : GLex) (t : TokType) (k : LitKind) (bad : Bool) : GToken :=
  { typ := t, kind := k, bad := bad, start := l.start.offset, end_ := l.current.offset, pos := l.start.place, lit := l.text }

/-- Result of a scan function: lexer, emitted tokens, next scan function. -/
abbrev GScanRes := GLex × List GToken × Option Scan

/-- The loop of `scanPlain` (syntax/scanner.go:52-71) -/
def gplainLoop : Nat → GLex → GLex × PlainStop
  | 0, l => (l, .eof)
  | n + 1, l =>
    let r := l.rune
    if r = eofRune then (l, .eof)
    else if r = rDollar ∨ r = rQuestion then
      if l.peek = r then gplainLoop n l.next.next else (l, .ref)
    else if r = rHash then (l, .func)
    else if r = rSQuote ∨ r = rDQuote ∨ r = rBacktick then (l, .quoted)
    else gplainLoop n l.next

/-- `scanPlain` (syntax/scanner.go:50-79) -/
def gscanPlain (l : GLex) : GScanRes :=
  let l := l.startToken
  let (l, stop) := gplainLoop l.fuel l
  let pending : List GToken := if l.advanced then [l.emit .plain .string false] else []
  match stop with
  | .ref => (l, pending, some .ref)
  | .func => (l, pending, some .func)
  | .quoted => (l, [], some .quotedPlain)
  | .eof =>
    if l.advanced then (l, pending, some .plain)
    else (l, [l.emit .eof .string false], none)

/-- `scanRef` (syntax/scanner.go:81-86) -/
def gscanRef (l : GLex) : GScanRes :=
  let l := l.startToken.next
  (l, [l.emit .ref .string false], some .index)

/-- The digit loop of `scanIndex` (syntax/scanner.go:92-96) -/
def gdigitsLoop : Nat → GLex → GLex
  | 0, l => l
  | n + 1, l =>
    if l.rune = eofRune then l
    else if l.rune < 0x30 ∨ l.rune > 0x39 then l
    else gdigitsLoop n l.next

/-- `scanIndex` (syntax/scanner.go:88-100) -/
def gscanIndex (l : GLex) : GScanRes :=
  if 0x31 ≤ l.rune ∧ l.rune ≤ 0x39 then
    let l := l.startToken
    let l := gdigitsLoop l.fuel l
    (l, [l.emit .literal .number false], some .plain)
  else (l, [], some .plain)

/-- The loop of `scanQuotedPlain` and `scanFuncArgQuoted` (syntax/scanner.go:104-114, 196-206) -/
def gquotedLoop (quoter : Rune) : Nat → GLex → GLex × Bool
  | 0, l => (l, false)
  | n + 1, l =>
    let r := l.rune
    if r = eofRune then (l, false)
    else if r = quoter then
      if quoter = rSQuote ∧ l.peek = rSQuote then gquotedLoop quoter n l.next.next
      else (l.next, true)
    else gquotedLoop quoter n l.next

/-- `scanQuotedPlain` (syntax/scanner.go:102-118) -/
def gscanQuotedPlain (l : GLex) : GScanRes :=
  let quoter := l.rune
  let l := l.next
  let (l, closed) := gquotedLoop quoter l.fuel l
  (l, [l.emit .plain .string (!closed)], some .plain)

/-- `scanFunc` (syntax/scanner.go:120-125) -/
def gscanFunc (l : GLex) : GScanRes :=
  let l := l.startToken.next
  (l, [l.emit .hash .string false], some .funcName)

/-- `for s.IsLetter() { s.Next() }` (syntax/scanner.go:129-131) -/
def glettersLoop : Nat → GLex → GLex
  | 0, l => l
  | n + 1, l => if l.isLetter then glettersLoop n l.next else l

/-- `for s.IsDecimal() { s.Next() }` (syntax/scanner.go:137-139) -/
def gdecimalsLoop : Nat → GLex → GLex
  | 0, l => l
  | n + 1, l => if l.isDecimal then gdecimalsLoop n l.next else l

/-- `scanFuncName` (syntax/scanner.go:127-150) -/
def gscanFuncName (l : GLex) : GScanRes :=
  let l := l.startToken
  let l := glettersLoop l.fuel l
  if !l.advanced then (l, [], some .plain)
  else
    let nameTok := l.emit .name .string false
    let l := l.startToken
    let l := gdecimalsLoop l.fuel l
    if l.advanced then (l, [nameTok, l.emit .literal .number false], some .plain)
    else if l.rune = rLparen then
      let l := l.next
      (l, [nameTok, l.emit .lparen .string false], some .funcArgs)
    else (l, [nameTok], some .plain)

/-- `for r != EOF && r != ',' && r != ')' { r = s.Next() }` (syntax/scanner.go:169-171) -/
def gargLoop : Nat → GLex → GLex
  | 0, l => l
  | n + 1, l =>
    if l.rune ≠ eofRune ∧ l.rune ≠ rComma ∧ l.rune ≠ rRparen then gargLoop n l.next else l

/-- `scanFuncArgs` (syntax/scanner.go:152-192) -/
def gscanFuncArgs (L : GoLib) (l : GLex) : GScanRes :=
  let l := l.skipWhitespace.startToken
  let r := l.rune
  if r = eofRune then (l, [], some .plain)
  else if r = rComma then
    let l := l.next
    (l, [l.emit .comma .string false], some .funcArgs)
  else if r = rRparen then
    let l := l.next
    (l, [l.emit .rparen .string false], some .plain)
  else if r = rSQuote then (l, [], some .funcArgQuoted)
  else
    let l := gargLoop l.fuel l
    if l.advanced then
      if l.text = lit "true" ∨ l.text = lit "false" then
        (l, [l.emit .literal .bool false], some .funcArgs)
      else if l.text = lit "null" ∨ l.text = lit "nil" then
        (l, [l.emit .literal .nil false], some .funcArgs)
      else if (parseFloat L l.text).isSome then
        (l, [l.emit .literal .number false], some .funcArgs)
      else (l, [l.emit .name .string true], some .funcArgs)
    else (l, [], some .funcArgs)

/-- `scanFuncArgQuoted` (syntax/scanner.go:194-210) -/
def gscanFuncArgQuoted (l : GLex) : GScanRes :=
  let quoter := l.rune
  let l := l.next
  let (l, closed) := gquotedLoop quoter l.fuel l
  if closed then (l, [l.emit .literal .string false], some .funcArgs)
  else (l, [l.emit .literal .string true], some .plain)

/-- Calling the current scan function. -/
def gscanStep (L : GoLib) : Scan → GLex → GScanRes
  | .plain => gscanPlain
  | .ref => gscanRef
  | .index => gscanIndex
  | .quotedPlain => gscanQuotedPlain
  | .func => gscanFunc
  | .funcName => gscanFuncName
  | .funcArgs => gscanFuncArgs L
  | .funcArgQuoted => gscanFuncArgQuoted

/-- Running the scanner to completion (`NextToken`, syntax/scanner.go:38-48) -/
def gscanRun (L : GoLib) : Nat → Scan → GLex → Option (List GToken)
  | 0, _, _ => none
  | n + 1, st, l =>
    match gscanStep L st l with
    | (_, toks, none) => some toks
    | (l', toks, some st') => (gscanRun L n st' l').map (toks ++ ·)

/-- All tokens of `input` (syntax/scanner.go:17-23, 38-48) -/
def gscanAll (L : GoLib) (input : Str) : Option (List GToken) :=
  gscanRun L (3 * (input.length + 1) + 3) .plain (GLex.init input)

/-! ## parser.go -/

/-- `parser` (syntax/parser.go:20-28) -/
structure GPState where
  toks : List GToken
  cur : GToken
  bindVarIndex : Nat
  bindVarStyle : Style

/-- `NextToken` as the parser sees it (syntax/scanner.go:38-48) -/
def GPState.next (p : GPState) : GPState :=
  match p.toks with
  | [] => p
  | t :: ts => { p with toks := ts, cur := t }

/-- `syntaxError` (syntax/parser.go:47-49): the offset of the current token, and what is wrong -/
def GPState.error (p : GPState) (e : PErr) : Nat × PErr := (p.cur.start, e)

/-- `bindVarExpr` (syntax/parser.go:80-122) -/
def gbindVarExpr (p : GPState) : Except (Nat × PErr) ((Expr × Place) × GPState) :=
  let pos := p.cur.pos
  let t : Style := if p.cur.lit = lit "$" then dollar
                   else if p.cur.lit = lit "?" then question else 0
  let p := if p.cur.lit = lit "$" ∨ p.cur.lit = lit "?" then
      { p with bindVarIndex := p.bindVarIndex + 1
               bindVarStyle := if p.bindVarStyle = 0 then t else p.bindVarStyle }
    else p
  if (p.cur.lit = lit "$" ∨ p.cur.lit = lit "?") ∧ p.bindVarStyle ≠ t then
    .error (p.error .mixedBindvarStyles)
  else if t ≠ question then
    let p := p.next
    if p.cur.typ ≠ .literal then .error (p.error (.unexpectedToken p.cur.typ))
    else if p.cur.kind ≠ .number then .error (p.error .wantBindvarIndex)
    else match parseUint p.cur.lit with
      | none => .error (p.error (.badUint p.cur.lit))
      | some v => .ok ((.bindVar t (intOfUint64 v), pos), p)
  else .ok ((.bindVar t p.bindVarIndex, pos), p)

/-- The argument loop of `funcExpr` (syntax/parser.go:134-167) -/
def gargsLoop (L : GoLib) : Nat → GPState → List CallArg → Except (Nat × PErr) (List CallArg × GPState)
  | 0, p, _ => .error (p.error .outOfFuel)
  | n + 1, p, acc =>
    let p := p.next
    if p.cur.typ ≠ .literal then
      if p.cur.typ ≠ .rparen then .error (p.error (.wantArgs p.cur.typ)) else .ok (acc, p)
    else if p.cur.bad then .error (p.error (.badArgument p.cur.lit))
    else
      let arg : Except PErr CallArg :=
        match p.cur.kind with
        | .nil => .ok .nil
        | .bool => .ok (.bool (p.cur.lit = lit "true"))
        | .number =>
          match parseFloat L p.cur.lit with
          | none => .error (.badFloat p.cur.lit)
          | some x => .ok (.num x)
        | .string => .ok (.str (unescapeQuotes (p.cur.lit.drop 1).dropLast))
      match arg with
      | .error e => .error (p.error e)
      | .ok a =>
        let acc := acc ++ [a]
        let p := p.next
        if p.cur.typ = .comma then gargsLoop L n p acc
        else if p.cur.typ ≠ .rparen then .error (p.error (.wantRparen p.cur.typ))
        else .ok (acc, p)

/-- `funcExpr` (syntax/parser.go:124-208) -/
def gfuncExpr (L : GoLib) (p : GPState) : Except (Nat × PErr) (List (Expr × Place) × GPState) :=
  let pos := p.cur.pos
  let p := p.next
  if p.cur.typ ≠ .name then .error (p.error (.unexpectedToken p.cur.typ))
  else
    let name := p.cur.lit
    let p := p.next
    match p.cur.typ with
    | .lparen =>
      match gargsLoop L (p.toks.length + 2) p [] with
      | .error e => .error e
      | .ok (args, p) => .ok ([(.call name args, pos)], p)
    | .literal =>
      if p.cur.kind ≠ .number then .error (p.error (.wantIndex p.cur.lit))
      else match parseFloat L p.cur.lit with
        | none => .error (p.error (.badFloat p.cur.lit))
        | some x => .ok ([(.call name [.num x], pos)], p)
    | _ => .ok ([(.func name, pos), (.plain p.cur.lit, p.cur.pos)], p)

/-- `(*parser).Parse` (syntax/parser.go:51-78) -/
def gparseLoop (L : GoLib) : Nat → GPState → List (Expr × Place) → Except (Nat × PErr) (List (Expr × Place))
  | 0, p, _ => .error (p.error .outOfFuel)
  | n + 1, p, acc =>
    match p.toks with
    | [] => .ok acc
    | _ :: _ =>
      let p := p.next
      match p.cur.typ with
      | .eof => gparseLoop L n p acc
      | .ref =>
        match gbindVarExpr p with
        | .error e => .error e
        | .ok (d, p) => gparseLoop L n p (acc ++ [d])
      | .hash =>
        match gfuncExpr L p with
        | .error e => .error e
        | .ok (ds, p) => gparseLoop L n p (acc ++ ds)
      | .plain => gparseLoop L n p (acc ++ [(.plain p.cur.lit, p.cur.pos)])
      | t => .error (p.error (.unexpectedToken t))

/-- The parser run on a token list (fresh parser state) -/
def gparseTokens (L : GoLib) (toks : List GToken) : Except (Nat × PErr) (List (Expr × Place)) :=
  gparseLoop L (toks.length + 1)
    { toks := toks, cur := ⟨.eof, [], false, .string, 0, 0, ⟨0, 0⟩⟩, bindVarIndex := 0, bindVarStyle := 0 } []

/-- `syntax.Parse` (syntax/parser.go:10-18) with positions: the expressions with their `Pos()`, or the offset in
the message and the error -/
def gparse (L : GoLib) (input : Str) : Except (Nat × PErr) (List (Expr × Place)) :=
  match gscanAll L input with
  | none => .error (0, .outOfFuel)
  | some toks => gparseTokens L toks

end Sqlf
