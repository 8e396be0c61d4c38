import Verif.Model.Util
import Verif.Model.Memory
/-!
# Destinations in memory (util/scan.go)

`scanRow` and `scanRows` of Model/Util.lean treat the destinations as a list.  Here they are a Go slice that
is passed as `fields...`, with the array of the caller behind it.
-/

namespace Sqlf

/-- The loop of `ScanRow` (util/scan.go:61-63): `n` times `dest = append(dest, &bh)`.  What the spare room of
a new array holds cannot be seen. -/
def appendHoles (grow : Nat → Nat) : Nat → List (List Dest) → Slice → List (List Dest) × Slice
  | 0, A, s => (A, s)
  | n + 1, A, s =>
    let (A, s) := s.append grow .blackhole A [.blackhole]
    appendHoles grow n A s

/-- `ScanRow` (util/scan.go:54-65): the result, and the arrays afterwards -/
def scanRowMem (grow : Nat → Nat) (columns : Except Err Nat) (conv : Nat → Val → Except Err Val) (row : List Val)
    (A : List (List Dest)) (s : Slice) : Except Err (List (Nat × Val)) × List (List Dest) :=
  match columns with
  | .error e => (.error e, A)
  | .ok n =>
    let (A, s) := appendHoles grow (n - s.len) A s
    (rowsScan conv row (s.read A), A)

/-- The loop of `Scan` (util/scan.go:41-48), from row `i` on.  `fn i` is the slice of fields that `fn()` returns
for row `i`: a literal `[]any{…}`, or a slice of an array of the caller. -/
def scanRowsMem (grow : Nat → Nat) (columns : Except Err Nat) (conv : Nat → Val → Except Err Val) (fn : Nat → Given Dest) :
    Nat → List (List Val) → List (List Dest) → Except Err (List (List (Nat × Val))) × List (List Dest)
  | _, [], A => (.ok [], A)
  | i, row :: rest, A =>
    let (A, s) := (fn i).slice .blackhole A
    match scanRowMem grow columns conv row A s with
    | (.error e, A) => (.error e, A)
    | (.ok r, A) =>
      match scanRowsMem grow columns conv fn (i + 1) rest A with
      | (.error e, A) => (.error e, A)
      | (.ok rs, A) => (.ok (r :: rs), A)

end Sqlf
