import Verif.Model.NilContext
/-!
# Outcomes of `BuildFragment(nil)`
-/

namespace Sqlf.Spec

/-- `b.BuildFragment(nil)` in state `s` ends with outcome `r.1` in state `r.2`.  `orphan` is what builds do with
contexts that user code makes from the nil context. -/
def NilReturns (L : GoLib) (orphan : List (Str × FuncVal) → Builder → M (Except Err Str)) (b : Builder)
    (s : St) (r : Out Str × St) : Prop :=
  r.1 ≠ .oof ∧ ∃ N, ∀ n, N ≤ n → nilBuild L orphan n b s = r

/-- Code of the library, not of the user. -/
def Builder.NotUser : Builder → Prop
  | .custom _ => False
  | _ => True

end Sqlf.Spec
