import Verif.Model.Kept
import Verif.Spec.Memory
/-!
# What a query builder holds, whatever the caller does with its slices
-/

namespace Sqlf.Spec

/-- The query builder as a build sees it: with what its slices hold now. -/
def seenNow (m : SQMem) : QB :=
  { m.q.rest with
    selects := m.q.rest.selects.withFragments (m.q.selects.read m.blds)
    groupbys := m.q.rest.groupbys.withFragments (m.q.groupbys.read m.blds)
    unions := m.q.unions.read m.blds
    ctes := m.q.ctes.map fun c => Cte.mk c.1 (c.2.2.read m.names) c.2.1 }

/-- A call that takes no slice. -/
def NoSlice : Call → Prop
  | .select _ | .groupBy _ | .union _ | .with_ _ _ _ => False
  | _ => True

/-- The arguments of a call can be written: listed, or `xs...` with a slice of an array of the caller. -/
def Writable (A : List (List α)) (mine : List Nat) : Given α → Prop
  | .listed _ => True
  | .spread s => InBounds A s ∧ (0 < s.cap → s.arr ∈ mine)

/-- The call, with what the slices hold at the time of the call. -/
def callNow (m : SQMem) : QOp → Option Call
  | .select g => some (.select (g.elems m.blds))
  | .groupBy g => some (.groupBy (g.elems m.blds))
  | .union g => some (.union (g.elems m.blds))
  | .with_ n b g => some (.with_ n b (g.elems m.names))
  | .other c => some c
  | _ => none

/-- What the caller does can be written, does not panic, and is no assignment to the slice of dependencies of a CTE. -/
def Considerate (m : SQMem) : QOp → Prop
  | .select g => Writable m.blds m.mineB g
  | .groupBy g => Writable m.blds m.mineB g
  | .union g => Writable m.blds m.mineB g
  | .with_ _ _ g => Writable m.names m.mineN g
  | .assignN k i _ => ∀ c ∈ m.q.ctes, ¬ (c.2.2.arr = k ∧ c.2.2.off ≤ i ∧ i < c.2.2.off + c.2.2.len)
  | .other c => NoSlice c ∧ ∃ b, c.apply (seenNow m) = .ok b
  | _ => True

/-- The memory after some history, and the calls of the query builder in it. -/
inductive History (grow : Nat → Nat) : SQMem → List Call → Prop
  | start : History grow .new []
  | step {m : SQMem} {cs : List Call} (o : QOp) : History grow m cs → Considerate m o →
      History grow (o.run grow m) (cs ++ (callNow m o).toList)

end Sqlf.Spec
