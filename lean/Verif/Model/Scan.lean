import Verif.Model.Util
import Verif.Model.Eval
/-!
# Queries sent to a database (util/scan.go)

The database is what it answers to a query and its arguments.  Beside its result, each function
gives the queries it sends, in order.  `Rows.rows` are the rows `rows.Next()` delivers.
-/

namespace Sqlf

/-- Queries with their arguments, in the order in which they are sent. -/
abbrev Sent := List (Str × List Val)

/-- A Go result `(T, error)` as an outcome. -/
def Out.ofExcept : Except Err α → Out α
  | .ok a => .ok a
  | .error e => .err e

/-- `ScanBuilder` (util/scan.go:24-31) -/
def scanBuilder (L : GoLib) (fuel : Nat) (db : Str → List Val → Except Err Rows) (conv : Nat → Val → Except Err Val)
    (nFields : Nat) (b : Builder) (style : Style) (heap : List QB) : Out (List (List (Nat × Val))) × Sent :=
  match buildQuery L fuel b style heap with
  | .ok (query, args) => (.ofExcept (scan (db query args) conv nFields), [(query, args)])
  | .err e => (.err e, [])
  | .panic p => (.panic p, [])
  | .oof => (.oof, [])

/-- `CountBuilder` (util/scan.go:68-74) -/
def countBuilder (L : GoLib) (fuel : Nat) (db : Str → List Val → CountReply) (b : Builder) (style : Style)
    (heap : List QB) : Out Int × Sent :=
  match buildQuery L fuel b style heap with
  | .ok (query, args) => (count L db query args, [(countQuery query, args)])
  | .err e => (.err e, [])
  | .panic p => (.panic p, [])
  | .oof => (.oof, [])

end Sqlf
