import Verif.Model.Dest
import Verif.Spec.Memory
/-!
# What scanning may do to the slices of the caller
-/

namespace Sqlf.Spec

/-- What array `k` holds at place `i`. -/
def place (A : List (List α)) (k i : Nat) : Option α := (A[k]?).bind (·[i]?)

/-- The places of the arrays between the end of the slice and its capacity that are no farther from its beginning than
`n`, as far as they are: those that `n` columns reach beyond the destinations `s`. -/
def Behind (s : Slice) (n k i : Nat) : Prop := k = s.arr ∧ s.off + s.len ≤ i ∧ i < s.off + s.cap ∧ i < s.off + n

/-- None of the places that are reached from `s` is in `s'`. -/
def OutOfReach (s : Slice) (n : Nat) (s' : Slice) : Prop :=
  ∀ i, s'.off ≤ i → i < s'.off + s'.len → ¬ Behind s n s'.arr i

/-- The results of scanning rows one after the other into given destinations: the first error, or all results. -/
def scanEach (columns : Except Err Nat) (conv : Nat → Val → Except Err Val) (dests : Nat → List Dest) :
    Nat → List (List Val) → Except Err (List (List (Nat × Val)))
  | _, [] => .ok []
  | i, row :: rest =>
    match scanRow columns conv row (dests i), scanEach columns conv dests (i + 1) rest with
    | .error e, _ => .error e
    | .ok _, .error e => .error e
    | .ok r, .ok rs => .ok (r :: rs)

end Sqlf.Spec
