import Verif.Model.Types
/-!
# package util: ArgsFlatted, Interpolate, Scan, ScanRow, Count

Model of util/args.go, util/interpolate.go and util/scan.go.
-/

namespace Sqlf

/-! ## args.go -/

/-- `argsFrom` and `convertArrayReflect` (util/args.go:23-70, 85-107).  The type switch only
selects a faster path to the same result, except that a nil `*[]bool` … `*[]string` is
dereferenced (panic).  `Ttoa` (73-82) is the identity on the elements. -/
def argsFrom : Val → Out (List Val)
  | .slice _ es => .ok es
  | .array _ es => .ok es
  | .stringer i h t (some es) => let _ := (i, h, t); .ok es
  | .valuer i h r (some es) => let _ := (i, h, r); .ok es
  | .ptr _ (.slice _ es) => .ok es
  | .ptr _ (.array _ es) => .ok es
  | .ptr _ (.stringer _ _ _ (some es)) => .ok es
  | .ptr _ (.valuer _ _ _ (some es)) => .ok es
  | .nilPtr _ true => .panic .nilDereference
  | v => .ok [v]

/-- `ArgsFlatted` (util/args.go:15-21) -/
def argsFlatted : List Val → Out (List Val)
  | [] => .ok []
  | v :: vs =>
    match argsFrom v with
    | .ok a => match argsFlatted vs with
      | .ok b => .ok (a ++ b)
      | o => o
    | o => o

/-! ## interpolate.go -/

/-- `quoteStringValue` (util/interpolate.go:120-126) -/
def quoteString (s : Str) : Str := lit "'" ++ escapeQuotes s ++ lit "'"

/-- `encodeValue` (util/interpolate.go:69-118); `layout` is `opts.TimeFormat`.  The methods `Value` and
`String` of the user are taken not to panic, except when they are called by a nil pointer of a type they
are not declared for (74, 95). -/
def encodeValue (L : GoLib) (layout : Str) : Val → Out Str
  | .nil => .ok (lit "NULL")
  | .valuer _ _ none _ => .err .valuer
  | .valuer _ _ (some v) _ => encodeValue L layout v
  | .time _ true => .ok (lit "'0000-00-00'")
  | .time id false => .ok (lit "'" ++ L.formatTime id layout ++ lit "'")
  | .stringer _ _ t _ => .ok (quoteString t)
  | .bool _ true => .ok (lit "TRUE")
  | .bool _ false => .ok (lit "FALSE")
  | .int _ i => .ok (itoa i)
  | .uint _ n => .ok (natDigits n)
  | .float _ f => .ok (L.formatFloat f.bits)
  | .str _ s => .ok (quoteString s)
  | .nilRecv _ => .panic .nilDereference
  | _ => .err .unsupportedType

/-- The loop of `Interpolate` (util/interpolate.go:52-65).  `args[decl.Index-1]` panics if the
index is out of range. -/
def interpolateExprs (L : GoLib) (layout : Str) (args : List Val) : List Expr → Out Str
  | [] => .ok []
  | .plain t :: es =>
    match interpolateExprs L layout args es with
    | .ok r => .ok (t ++ r)
    | o => o
  | .bindVar _ i :: es =>
    if i < 1 ∨ args.length < i then .panic .indexOutOfRange
    else
      match args[(i - 1).toNat]? with
      | none => .panic .indexOutOfRange
      | some v =>
        match encodeValue L layout v with
        | .ok s =>
          match interpolateExprs L layout args es with
          | .ok r => .ok (s ++ r)
          | o => o
        | o => o
  | .call _ _ :: _ => .err .unsupportedDecl
  | .func _ :: _ => .err .unsupportedDecl

/-- `Interpolate` (util/interpolate.go:45-67) with the given time layout (`WithTimeFormat`;
default `time.RFC3339`). -/
def interpolate (L : GoLib) (layout : Str) (query : Str) (args : List Val) : Out Str :=
  match parse L query with
  | .error e => .err (.parse e)
  | .ok es => interpolateExprs L layout args es

/-- `time.RFC3339` (util/interpolate.go:24) -/
def rfc3339 : Str := lit "2006-01-02T15:04:05Z07:00"

/-- `applyInterpolateOptions` and `WithTimeFormat` (util/interpolate.go:22-41).  Outside of the package
`WithTimeFormat` is the only way to make an option, so options are given by their formats; an
`InterpolateOption(nil)`, which panics when it is applied, is left out. -/
def applyInterpolateOptions (options : List Str) : Str := options.foldl (fun _ format => format) rfc3339

/-- `Interpolate` (util/interpolate.go:45-67) with options -/
def interpolateWith (L : GoLib) (query : Str) (args : List Val) (options : List Str) : Out Str :=
  interpolate L (applyInterpolateOptions options) query args

/-! ## scan.go

`database/sql` is not part of the repository: `Rows` is a script of what the driver delivers. -/

/-- What a query delivers: the number of columns (`rows.Columns()`), the rows, and the error
that ended the iteration early, if any (`rows.Err()`). -/
structure Rows where
  columns : Except Err Nat
  rows : List (List Val)
  iterErr : Option Err

/-- A destination handed to `rows.Scan`: a field of the user or the black hole
(util/scan.go:61, 90-92). -/
inductive Dest where
  | field (i : Nat)
  | blackhole
deriving DecidableEq, Repr

/-- The assignments of `rows.Scan(dest...)` to the user's fields, given a conversion that may
fail; the black hole accepts everything (`database/sql`, and util/scan.go:92). -/
def assignAll (conv : Nat → Val → Except Err Val) : List Dest → List Val → Except Err (List (Nat × Val))
  | .field i :: ds, v :: vs =>
    match conv i v with
    | .error e => .error e
    | .ok w => match assignAll conv ds vs with
      | .error e => .error e
      | .ok r => .ok ((i, w) :: r)
  | .blackhole :: ds, _ :: vs => assignAll conv ds vs
  | _, _ => .ok []

/-- `rows.Scan(dest...)` of `database/sql`: the number of destinations must be the number of
columns. -/
def rowsScan (conv : Nat → Val → Except Err Val) (row : List Val) (dest : List Dest) :
    Except Err (List (Nat × Val)) :=
  if dest.length ≠ row.length then .error (.builder (lit "sql: wrong number of destinations"))
  else assignAll conv dest row

/-- `ScanRow` (util/scan.go:54-65) -/
def scanRow (columns : Except Err Nat) (conv : Nat → Val → Except Err Val) (row : List Val)
    (dest : List Dest) : Except Err (List (Nat × Val)) :=
  match columns with
  | .error e => .error e
  | .ok n => rowsScan conv row (dest ++ List.replicate (n - dest.length) .blackhole)

/-- The loop of `Scan` (util/scan.go:41-48); `nFields` is the number of fields `fn()` returns. -/
def scanRows (columns : Except Err Nat) (conv : Nat → Val → Except Err Val) (nFields : Nat) :
    List (List Val) → Except Err (List (List (Nat × Val)))
  | [] => .ok []
  | row :: rest =>
    match scanRow columns conv row ((List.range nFields).map .field) with
    | .error e => .error e
    | .ok r => match scanRows columns conv nFields rest with
      | .error e => .error e
      | .ok rs => .ok (r :: rs)

/-- `Scan` (util/scan.go:33-50): the result of `db.Query` is given.  `rows.Err()` is not
consulted after the loop. -/
def scan (q : Except Err Rows) (conv : Nat → Val → Except Err Val) (nFields : Nat) :
    Except Err (List (List (Nat × Val))) :=
  match q with
  | .error e => .error e
  | .ok rows => scanRows rows.columns conv nFields rows.rows

/-- What `db.QueryRow(query, args...).Scan(&count)` can return. -/
inductive CountReply where
  | value (n : Int)
  | noRows
  | err (e : Err)

/-- The query `Count` sends (util/scan.go:78) -/
def countQuery (query : Str) : Str := lit "SELECT COUNT(1) FROM (" ++ query ++ lit ") list"

/-- `Count` (util/scan.go:77-88) against a database `db`.  A database error is wrapped with the interpolated query, or
with the empty text if that is an error. -/
def count (L : GoLib) (db : Str → List Val → CountReply) (query : Str) (args : List Val) : Out Int :=
  match db (countQuery query) args with
  | .value n => .ok n
  | .noRows => .ok 0
  | .err e =>
    match interpolate L rfc3339 (countQuery query) args with
    | .panic p => .panic p
    | .ok text => .err (.wrap text e)
    | .err _ => .err (.wrap [] e)
    | .oof => .oof

end Sqlf
