import Verif.Spec.Denote
/-!
# Trees in which no `#join` commits values it then drops

A `#join` without explicit end stops at the first index that is invalid; what its template
committed before it came to the invalid reference stays committed.  In a tidy tree this does
not happen.
-/

namespace Sqlf.Spec

/-- The number of items a bare function of a join template runs over. -/
def listLen (nArgs nFrags : Nat) (name : Str) : Nat := if name = lit "arg" then nArgs else nFrags

/-- A tidy join template: the first thing that is not text is a bare function, and it runs over
a list that is not longer than those of the other bare functions; no calls in it. -/
def tidyItems (nArgs nFrags : Nat) : List Expr → Bool
  | [] => true
  | .plain _ :: es => tidyItems nArgs nFrags es
  | .func g :: es => es.all fun
    | .func h => listLen nArgs nFrags g ≤ listLen nArgs nFrags h
    | .call _ _ => false
    | _ => true
  | _ => false

/-- All `#join` templates of a clause are tidy. -/
def tidyClause (L : GoLib) (parse : Str → Option (List Expr)) (nArgs nFrags : Nat)
    (es : List Expr) : Bool :=
  es.all fun
    | .call name as =>
      if name = lit "join" then
        match joinArgs L as with
        | .ok (t, _, _) => match parse t with
          | some es' => tidyItems nArgs nFrags es'
          | none => true
        | _ => true
      else true
    | _ => true

mutual
/-- A tree of fragments with tidy `#join` templates, in which no nested fragment fails with
`ErrInvalidIndex`. -/
def tidy (L : GoLib) (parse : Str → Option (List Expr)) (bad : Val → Bool) : Builder → Bool
  | .frag f => tidyF L parse bad f
  | .column _ f => tidyF L parse bad f
  | .custom _ => false
  | .qb _ => false
  | _ => true
def tidyF (L : GoLib) (parse : Str → Option (List Expr)) (bad : Val → Bool) : Fragment → Bool
  | .mk raw args frags _ _ =>
    (match parse raw with
      | some es => tidyClause L parse args.length frags.length es
      | none => true) && tidyL L parse bad frags
def tidyL (L : GoLib) (parse : Str → Option (List Expr)) (bad : Val → Bool) : List Builder → Bool
  | [] => true
  | b :: bs => tidy L parse bad b && (sem L parse bad b []).1 ≠ .invalidIndex && tidyL L parse bad bs
end

end Sqlf.Spec
