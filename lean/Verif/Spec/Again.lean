import Verif.Spec.Query
/-!
# Small specification for building again
-/

namespace Sqlf.Spec

/-- The query builders in memory have become `heap'` by any number of builds, of anything, with any
contexts and outcomes. -/
inductive AfterBuilds (L : GoLib) (heap : List QB) : List QB → Prop where
  | none : AfterBuilds L heap heap
  | build {ctx : Ctx} {c : Builder} {s s' : St} {o : Out Str} (h : AfterBuilds L heap s.heap)
      (hb : BuildsTo L ctx c s (o, s')) : AfterBuilds L heap s'.heap

/-- Every order given to `OrderBy` is valid, and `OrderBy` and `Distinct` were not both called. -/
def Repeatable (cs : List Call) : Prop :=
  (∀ o ∈ orderedBy cs, orderText o.order ≠ none) ∧ (distinctIn cs = false ∨ orderedBy cs = [])

end Sqlf.Spec
