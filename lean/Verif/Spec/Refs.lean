import Verif.Spec.Template
/-!
# What a clause refers to, what a template says it refers to
-/

namespace Sqlf.Spec

/-- The argument positions the bind variables of a clause refer to, in order. -/
def refs : List Expr → List Int
  | [] => []
  | .bindVar _ i :: es => i :: refs es
  | _ :: es => refs es

/-- The text of a clause outside of references. -/
def plainText : List Expr → Str
  | [] => []
  | .plain t :: es => t ++ plainText es
  | _ :: es => plainText es

/-- The calls of a clause, in order. -/
def calls : List Expr → List (Str × List CallArg)
  | [] => []
  | .call n as :: es => (n, as) :: calls es
  | _ :: es => calls es

/-- The text of a template outside of references. -/
def itemText : List Item → Str
  | [] => []
  | .text s :: is => s ++ itemText is
  | .quoted q s :: is => [q] ++ s ++ [q] ++ itemText is
  | .esc b :: is => [b, b] ++ itemText is
  | _ :: is => itemText is

def isQmark : Item → Bool
  | .qmark => true
  | _ => false

def isDollarN : Item → Bool
  | .dollarN _ => true
  | _ => false

/-- The numbers of the `$n` of a template. -/
def dollarNumbers : List Item → List Int
  | [] => []
  | .dollarN n :: is => (n : Nat) :: dollarNumbers is
  | _ :: is => dollarNumbers is

/-- Two parse results that are the same clause, up to the division of plain text, or the same
error. -/
def SameClause : Except PErr (List Expr) → Except PErr (List Expr) → Prop
  | .ok a, .ok b => glue a = glue b
  | .error a, .error b => a = b
  | _, _ => False

end Sqlf.Spec
