import Verif.Spec.Halting
import Verif.Spec.Jobs
/-!
# Programs whose query builders do not contain themselves
-/

namespace Sqlf.Spec

/-- The builders that a call puts into a query builder have the property `P`. -/
def CallUses (P : Builder → Prop) : Call → Prop
  | .select cs => ∀ c ∈ cs, P c
  | .groupBy cs => ∀ c ∈ cs, P c
  | .orderBy c _ => P c
  | .union bs => ∀ b ∈ bs, P b
  | .with_ _ b _ => P b
  | .where_ (some f) => P (.frag f)
  | .where2 c _ _ => P c
  | .whereIn c _ => P c
  | .whereNotIn c _ => P c
  | .innerJoin _ (some f) => P (.frag f)
  | .leftJoin _ (some f) => P (.frag f)
  | .leftJoinOptional _ (some f) => P (.frag f)
  | .rightJoin _ (some f) => P (.frag f)
  | .fullJoin _ (some f) => P (.frag f)
  | _ => True

/-- The job puts into a query builder only what refers to query builders with lower numbers, and adds tame functions
only.  Any builder may be built. -/
def JobTame (rank : Nat → Nat) : Job → Prop
  | .build b _ => AddsTame b
  | .call r c => CallUses (fun b => RefsIn (fun q => rank q < rank r) b ∧ AddsTame b) c

end Sqlf.Spec
