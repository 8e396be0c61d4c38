import Verif.Model.SharedContext
import Verif.Spec.History
/-!
# Contexts shared by goroutines: specification
-/

namespace Sqlf.Spec

/-- The entries of goroutine `i` in a list of entries of several goroutines. -/
def byGoroutine {α : Type} (log : List (Nat × α)) (i : Nat) : List α := (log.filter (·.1 = i)).map (·.2)

/-- The goroutine is in a call of `CommitArg`. -/
def Committer.Inside (g : Committer) : Prop := g.phase ≠ .outside ∧ g.phase ≠ .panicked

/-- A goroutine makes a step only when no other goroutine is in a call of `CommitArg`: calls do not overlap. -/
def OneAtATime (s : Sharing) (schedule : List Nat) : Prop :=
  ∀ k i, schedule[k]? = some i → ∀ j, Committer.Inside ((s.run (schedule.take k)).gs j) → j = i

/-- The calls that returned gave the goroutines what they would have given one after the other in some order, `log`, and
the store is the one after them; each goroutine made its calls in the order of its program. -/
def InSomeOrder (st0 : Store) (work : Nat → List Val) (s : Sharing) : Prop :=
  ∃ log : List (Nat × Val × Str), commitAll st0 (log.map (·.2.1)) = some (log.map (·.2.2), s.store) ∧
    ∀ i, work i = (byGoroutine log i).map (·.1) ++ (s.gs i).todo ∧ (s.gs i).got = (byGoroutine log i).map (·.2)

end Sqlf.Spec
