import Verif.Model.Flat
import Verif.Spec.Memory
/-!
# Arguments of `ArgsFlatted`, as values
-/

namespace Sqlf.Spec

/-- The argument with what its slice holds. -/
def FlatArg.seen (A : List (List Val)) (anyType : Nat) : FlatArg → Val
  | .anys s => .slice anyType (s.read A)
  | .value v => v

/-- What the caller can do with a slice `s`: assign to an element, and append. -/
inductive Use where
  | assign (i : Nat) (x : Val)
  | append (xs : List Val)

/-- The arrays after it. -/
def Use.apply (grow : Nat → Nat) (A : List (List Val)) (s : Slice) : Use → List (List Val)
  | .assign i x => if i < s.len then A.modify s.arr (·.set (s.off + i) x) else A
  | .append xs => (s.append grow .nil A xs).1

end Sqlf.Spec
