import Verif.Spec.Denote
/-!
# Trees that differ only in argument values
-/

namespace Sqlf.Spec

/-- Two lists of equal length whose elements are related position by position. -/
inductive Pointwise (R : α → β → Prop) : List α → List β → Prop
  | nil : Pointwise R [] []
  | cons {a b as bs} : R a b → Pointwise R as bs → Pointwise R (a :: as) (b :: bs)

mutual
/-- Two builder trees that are equal except for their argument values, which are related by
`R` position by position. -/
def SameShape (R : Val → Val → Prop) : Builder → Builder → Prop
  | .frag f, .frag g => SameShapeF R f g
  | .column _ f, .column _ g => SameShapeF R f g
  | .table t, .table u => t = u
  | .aliased n a, .aliased m b => n = m ∧ a = b
  | .nil, .nil => True
  | .nilFrag, .nilFrag => True
  | .nilColumn, .nilColumn => True
  | .columnNilFrag _, .columnNilFrag _ => True
  | .nilQb, .nilQb => True
  | _, _ => False
def SameShapeF (R : Val → Val → Prop) : Fragment → Fragment → Prop
  | .mk raw args frags pre suf, .mk raw' args' frags' pre' suf' =>
    raw = raw' ∧ Pointwise R args args' ∧ SameShapeL R frags frags' ∧ pre = pre' ∧ suf = suf'
def SameShapeL (R : Val → Val → Prop) : List Builder → List Builder → Prop
  | [], [] => True
  | b :: bs, c :: cs => SameShape R b c ∧ SameShapeL R bs cs
  | _, _ => False
end

mutual
/-- Every argument value in the tree satisfies `P`. -/
def AllVals (P : Val → Prop) : Builder → Prop
  | .frag f => AllValsF P f
  | .column _ f => AllValsF P f
  | _ => True
def AllValsF (P : Val → Prop) : Fragment → Prop
  | .mk _ args frags _ _ => (∀ v ∈ args, P v) ∧ AllValsL P frags
def AllValsL (P : Val → Prop) : List Builder → Prop
  | [] => True
  | b :: bs => AllVals P b ∧ AllValsL P bs
end

/-- A relation between values that the Dollar store cannot tell apart. -/
structure Compat (R : Val → Val → Prop) : Prop where
  eq : ∀ v v' w w', R v v' → R w w' → v.goEq w = v'.goEq w'
  hash : ∀ v v', R v v' → v.hashable = v'.hashable

end Sqlf.Spec
