import Verif.Model.Util
import Verif.Model.Memory
/-!
# `ArgsFlatted` in memory (util/args.go)

`argsFlatted` of Model/Util.lean treats slices as lists.  Here a `[]any` that is given to it is a Go slice with
the array of the caller behind it.  Slices of other types are values: their elements are copied one by one
into an array of `any` (`Ttoa`, util/args.go:73-82, and `convertArrayReflect`, 100-106).
-/

namespace Sqlf

/-- An argument of `ArgsFlatted`: a `[]any`, or anything else -/
inductive FlatArg where
  | anys (s : Slice)
  | value (v : Val)

/-- `argsFrom` (util/args.go:23-70): a `[]any` is returned as it is (25-26), of everything else a new slice is made
(73-82, 85-107).  Simplified: an empty one has an array here too, where the code returns nil. -/
def argsFromMem (A : List (List Val)) : FlatArg → Out (List (List Val) × Slice)
  | .anys s => .ok (A, s)
  | .value v =>
    match argsFrom v with
    | .ok xs => .ok (Slice.alloc .nil A xs 0)
    | .err e => .err e
    | .panic p => .panic p
    | .oof => .oof

/-- The loop of `ArgsFlatted` (util/args.go:17-19) -/
def flattedLoop (grow : Nat → Nat) : List (List Val) → Slice → List FlatArg → Out (List (List Val) × Slice)
  | A, acc, [] => .ok (A, acc)
  | A, acc, v :: vs =>
    match argsFromMem A v with
    | .ok (A, s) =>
      let (A, acc) := acc.append grow .nil A (s.read A)
      flattedLoop grow A acc vs
    | .err e => .err e
    | .panic p => .panic p
    | .oof => .oof

/-- `ArgsFlatted` (util/args.go:15-21): the arrays afterwards and the slice that is returned.  The slice starts with room for
10 elements (16). -/
def argsFlattedMem (grow : Nat → Nat) (A : List (List Val)) (vs : List FlatArg) : Out (List (List Val) × Slice) :=
  let (A, acc) := Slice.alloc .nil A [] 10
  flattedLoop grow A acc vs

end Sqlf
