/-!
# Go strings: bytes, UTF-8 decoding, white space, and the few `strings`/`strconv` helpers used

A Go `string` is an arbitrary byte sequence (it need not be valid UTF-8), so the model's
strings are lists of bytes.  The functions of this file model the Go standard library
functions that the code under /repo calls; they are the *library* part of the trusted base.
-/

namespace Sqlf

/-- A Go `string`: an arbitrary sequence of bytes. -/
abbrev Str := List UInt8

/-- ASCII literal as bytes (used only on ASCII literals of the Go source). -/
def lit (s : String) : Str := s.toList.map fun c => c.toNat.toUInt8

/-- Go `rune`.  `int32` in Go; every rune produced by the decoder is non-negative. -/
abbrev Rune := Nat

/-- `utf8.RuneError`. -/
def runeError : Rune := 0xFFFD

/-- `syntax.EOF` (syntax/lexer.go:9): the NUL rune doubles as the end-of-input marker. -/
def eofRune : Rune := 0

/-- Continuation byte test `locb ≤ b ≤ hicb` of Go's `unicode/utf8`. -/
def isCont (b : UInt8) : Bool := 0x80 ≤ b && b ≤ 0xBF

/-- `utf8.DecodeRuneInString` of the Go standard library: rune and byte width of the first
rune of `s`; `(RuneError, 0)` on the empty string, `(RuneError, 1)` on an invalid encoding.
The case split is Go's `first`/`acceptRanges` tables written out. -/
def decodeRune : Str → Rune × Nat
  | [] => (runeError, 0)
  | p0 :: t =>
    if p0 < 0x80 then (p0.toNat, 1)
    else if p0 < 0xC2 then (runeError, 1)
    else if p0 < 0xE0 then
      match t with
      | s1 :: _ =>
        if isCont s1 then ((p0.toNat - 0xC0) * 64 + (s1.toNat - 0x80), 2) else (runeError, 1)
      | _ => (runeError, 1)
    else if p0 < 0xF0 then
      match t with
      | s1 :: s2 :: _ =>
        let lo : UInt8 := if p0 = 0xE0 then 0xA0 else 0x80
        let hi : UInt8 := if p0 = 0xED then 0x9F else 0xBF
        if lo ≤ s1 && s1 ≤ hi && isCont s2 then
          ((p0.toNat - 0xE0) * 4096 + (s1.toNat - 0x80) * 64 + (s2.toNat - 0x80), 3)
        else (runeError, 1)
      | _ => (runeError, 1)
    else if p0 < 0xF5 then
      match t with
      | s1 :: s2 :: s3 :: _ =>
        let lo : UInt8 := if p0 = 0xF0 then 0x90 else 0x80
        let hi : UInt8 := if p0 = 0xF4 then 0x8F else 0xBF
        if lo ≤ s1 && s1 ≤ hi && isCont s2 && isCont s3 then
          ((p0.toNat - 0xF0) * 262144 + (s1.toNat - 0x80) * 4096
            + (s2.toNat - 0x80) * 64 + (s3.toNat - 0x80), 4)
        else (runeError, 1)
      | _ => (runeError, 1)
    else (runeError, 1)

/-- `unicode.IsSpace` of the Go standard library: the Latin-1 list and the `White_Space`
table, written out. -/
def isSpace (r : Rune) : Bool :=
  r == 0x09 || r == 0x0A || r == 0x0B || r == 0x0C || r == 0x0D || r == 0x20 ||
  r == 0x85 || r == 0xA0 || r == 0x1680 || (0x2000 ≤ r && r ≤ 0x200A) ||
  r == 0x2028 || r == 0x2029 || r == 0x202F || r == 0x205F || r == 0x3000

/-- Leading half of `strings.TrimSpace` (`TrimLeftFunc(s, unicode.IsSpace)`): drop the first
rune as long as it is white space.  `fuel` bounds the number of runes dropped; callers pass
the length of the string, which is enough because a rune is at least one byte. -/
def trimLeftAux : Nat → Str → Str
  | 0, s => s
  | n + 1, s =>
    match s with
    | [] => []
    | _ :: _ =>
      if isSpace (decodeRune s).1 then trimLeftAux n (s.drop (decodeRune s).2) else s

def trimLeft (s : Str) : Str := trimLeftAux s.length s

/-- `utf8.DecodeLastRuneInString` restricted to what `TrimRightFunc(s, unicode.IsSpace)` needs:
the byte width of the last rune of `s` if it is white space, `none` otherwise.  Go walks back
at most three bytes to the nearest rune start and decodes there; a white-space rune takes one
to three bytes, so it is the last rune exactly if the last 1, 2 or 3 bytes decode to it in
full. -/
def lastSpaceWidth (s : Str) : Option Nat :=
  let try_ (k : Nat) : Bool :=
    k ≤ s.length &&
    (let d := decodeRune (s.drop (s.length - k)); d.2 == k && isSpace d.1)
  if s.isEmpty then none
  else if try_ 1 then some 1
  else if try_ 2 then some 2
  else if try_ 3 then some 3
  else none

/-- Trailing half of `strings.TrimSpace` (`TrimRightFunc(s, unicode.IsSpace)`). -/
def trimRightAux : Nat → Str → Str
  | 0, s => s
  | n + 1, s =>
    match lastSpaceWidth s with
    | some k => trimRightAux n (s.take (s.length - k))
    | none => s

def trimRight (s : Str) : Str := trimRightAux s.length s

/-- `strings.TrimSpace`. -/
def trimSpace (s : Str) : Str := trimRight (trimLeft s)

/-- `strings.Join(items, sep)`. -/
def strJoin (sep : Str) : List Str → Str
  | [] => []
  | [x] => x
  | x :: y :: t => x ++ sep ++ strJoin sep (y :: t)

/-- Decimal digits of a natural number (ASCII). -/
def natDigits (n : Nat) : Str := (Nat.toDigits 10 n).map fun c => c.toNat.toUInt8

/-- `strconv.Itoa` / `fmt.Sprintf("%d", ·)`. -/
def itoa : Int → Str
  | .ofNat n => natDigits n
  | .negSucc n => 0x2D :: natDigits (n + 1)

/-- `b` is an ASCII decimal digit. -/
def isDigitB (b : UInt8) : Bool := 0x30 ≤ b && b ≤ 0x39

/-- Value of a string of ASCII digits (no check). -/
def digitsVal (s : Str) : Nat := s.foldl (fun a b => a * 10 + (b.toNat - 0x30)) 0

/-- `strings.ReplaceAll(s, "''", "'")` (used at syntax/parser.go:156): left-to-right,
non-overlapping. -/
def unescapeQuotes : Str → Str
  | [] => []
  | [x] => [x]
  | x :: y :: t => if x = 0x27 ∧ y = 0x27 then 0x27 :: unescapeQuotes t
                   else x :: unescapeQuotes (y :: t)

/-- `strings.ReplaceAll(s, "'", "''")` (used at util/interpolate.go:123). -/
def escapeQuotes : Str → Str
  | [] => []
  | x :: t => if x = 0x27 then 0x27 :: 0x27 :: escapeQuotes t else x :: escapeQuotes t

/-- The parts of the Go standard library that the model keeps abstract.  Every theorem
quantifies over all implementations of this record. -/
structure GoLib where
  /-- `unicode.IsLetter` on runes ≥ 0x80 -/
  isLetterHi : Rune → Bool
  /-- `strconv.ParseFloat(s, 64)` on everything but 1–15 ASCII digits; `none` = error -/
  parseFloatHard : Str → Option Nat
  /-- `int(x)` for a float parsed by `parseFloatHard` -/
  truncHard : Nat → Int
  /-- `(time.Time).Round(time.Microsecond).Format(layout)` -/
  formatTime : Nat → Str → Str
  /-- `fmt.Sprintf("%f", x)` of the float with the given bits -/
  formatFloat : Int → Str

/-- A `float64` obtained from a literal: either the exact value of a literal of 1–15 ASCII
digits (below 2^53, so `ParseFloat` is exact on it) or an abstract handle. -/
inductive Flt where
  | nat (n : Nat)
  | hard (id : Nat)
deriving DecidableEq, Repr

/-- 1 to 15 ASCII digits. -/
def isShortNat (s : Str) : Bool := s.all isDigitB && 0 < s.length && s.length ≤ 15

/-- `strconv.ParseFloat(s, 64)`; `none` = error. -/
def parseFloat (L : GoLib) (s : Str) : Option Flt :=
  if isShortNat s then some (.nat (digitsVal s)) else (L.parseFloatHard s).map .hard

/-- `int(x)` for a `float64` `x` (`reflect.Value.Convert` to an integer type). -/
def Flt.toInt (L : GoLib) : Flt → Int
  | .nat n => n
  | .hard id => L.truncHard id

/-- `unicode.IsLetter`: the ASCII letters written out, the rest abstract. -/
def isLetterRune (L : GoLib) (r : Rune) : Bool :=
  if r < 0x80 then (0x41 ≤ r && r ≤ 0x5A) || (0x61 ≤ r && r ≤ 0x7A) else L.isLetterHi r

/-- The runes of a string, as `for _, r := range s` yields them.  Fuel as in `trimLeftAux`. -/
def runesAux : Nat → Str → List Rune
  | 0, _ => []
  | n + 1, s =>
    match s with
    | [] => []
    | _ :: _ => (decodeRune s).1 :: runesAux n (s.drop (decodeRune s).2)

def runes (s : Str) : List Rune := runesAux s.length s

end Sqlf
