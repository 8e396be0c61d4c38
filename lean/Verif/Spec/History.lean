import Verif.Model.Val
/-!
# Commit histories

`commitAll s vs` commits the values `vs` one after the other to the argument store `s` and
collects the placeholders; `none` = one of the commits panicked.
-/

namespace Sqlf.Spec

def commitAll (s : Store) : List Val → Option (List Str × Store)
  | [] => some ([], s)
  | v :: vs =>
    match s.commit v with
    | none => none
    | some (p, s') =>
      match commitAll s' vs with
      | none => none
      | some (ps, s'') => some (p :: ps, s'')

/-- The placeholder `$n`. -/
def dollarMark (n : Nat) : Str := lit "$" ++ natDigits n

end Sqlf.Spec
