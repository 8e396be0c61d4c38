import Verif.Model.Memory
import Verif.Spec.Sqlb
/-!
# The slices given to the calls of a query builder

`QB` and `PQB` take the arguments of `Select(columns...)`, `GroupBy`, `Union` and `With` as lists.  Here they are
Go slices, and the slices of the query builder have arrays too: what it shares with the caller can be seen.
-/

namespace Sqlf

/-- The slices of a `QueryBuilder` (sqlb/query_builder.go:10-30) that come from variadic arguments: the `Fragments` of
`selects` and `groupbys`, `unions`, and the `deps` of each CTE, with its name and builder
(sqlb/query_builder_with.go:38-42).  `rest` is the rest of it; the lists it has for these slices are not used. -/
structure SQB where
  selects : Slice
  groupbys : Slice
  unions : Slice
  ctes : List (Str × Builder × Slice)
  rest : QB

/-- A query builder and all arrays.  `mineB` and `mineN` are the arrays the caller has made; the other ones nobody but
the query builder can reach.  Slices of columns and slices of builders have arrays of builders. -/
structure SQMem where
  blds : List (List Builder)
  names : List (List Str)
  mineB : List Nat
  mineN : List Nat
  q : SQB

/-- `NewQueryBuilder` (sqlb/query_builder.go:39-48): nil slices -/
def SQMem.new : SQMem := ⟨[], [], [], [], ⟨.nil, .nil, .nil, [], QB.new⟩⟩

/-- What the caller does: make an array, assign to a place of an array, or call the query builder:
`other` is any of its other calls. -/
inductive QOp where
  | arrayB (xs : List Builder)
  | arrayN (xs : List Str)
  | assignB (k i : Nat) (x : Builder)
  | assignN (k i : Nat) (x : Str)
  | select (g : Given Builder)
  | groupBy (g : Given Builder)
  | union (g : Given Builder)
  | with_ (name : Str) (builder : Builder) (g : Given Str)
  | other (c : Spec.Call)

/-- The loop of `GroupBy` (sqlb/query_builder.go:83-85): `b.groupbys.AppendFragments(c)` for each column -/
def appendEach (grow : Nat → Nat) : List Builder → List (List Builder) → Slice → List (List Builder) × Slice
  | [], A, s => (A, s)
  | c :: cs, A, s =>
    let (A, s) := s.append grow .nil A [c]
    appendEach grow cs A s

/-- `Select` (sqlb/query_builder.go:57-63) copies the columns by `convertFragmentBuilders` (sqlb/util.go:5-11); `GroupBy`
(82-87) and `Union` (92-95) append to slices of their own; `With` (sqlb/query_builder_with.go:27-36) keeps the slice.
Arrays of listed arguments that are not kept are left out.  The other calls are as in Model/Sqlb.lean. -/
def QOp.run (grow : Nat → Nat) (m : SQMem) : QOp → SQMem
  | .arrayB xs => { m with blds := m.blds ++ [xs], mineB := m.blds.length :: m.mineB }
  | .arrayN xs => { m with names := m.names ++ [xs], mineN := m.names.length :: m.mineN }
  | .assignB k i x => if k ∈ m.mineB then { m with blds := m.blds.modify k (·.set i x) } else m
  | .assignN k i x => if k ∈ m.mineN then { m with names := m.names.modify k (·.set i x) } else m
  | .select g =>
    if (g.elems m.blds).length = 0 then m
    else
      let (blds, s) := Slice.alloc .nil m.blds (g.elems m.blds) 0
      { m with blds, q := { m.q with selects := s } }
  | .groupBy g =>
    let (blds, s) := appendEach grow (g.elems m.blds) m.blds m.q.groupbys
    { m with blds, q := { m.q with groupbys := s } }
  | .union g =>
    let (blds, s) := m.q.unions.append grow .nil m.blds (g.elems m.blds)
    { m with blds, q := { m.q with unions := s } }
  | .with_ n b g =>
    let (names, s) := g.slice [] m.names
    { m with names, q := { m.q with ctes := m.q.ctes ++ [(n, b, s)] } }
  | .other c => match c.apply m.q.rest with
    | .ok rest => { m with q := { m.q with rest } }
    | _ => m

end Sqlf
