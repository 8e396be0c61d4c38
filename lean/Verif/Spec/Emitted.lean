import Verif.Spec.Sqlb
/-!
# Exactly the tables and CTEs of a query
-/

namespace Sqlf.Spec

/-- Tables that are in the query by themselves: not an optional join of a DISTINCT query, or needed. -/
def InAnyway (cs : List Call) (row : FromTable) : Prop :=
  row ∈ tablesBy cs ∧ (distinctIn cs = false ∨ row.optional = false ∨ NeededBy cs row.names.appliedName)

/-- The main table, or a needed one, has the name and no alias. -/
def PlainTable (cs : List Call) (n : Str) : Prop :=
  ∃ row, ((tablesBy cs).head? = some row ∨ NeededBy cs n ∧ rowOf n cs = some row) ∧ row.names = ⟨n, []⟩

/-- The names of the CTEs that are written: those of the tables, and the dependencies of those that are written, if
their name is not the name of a plain table. -/
inductive Emitted (cs : List Call) : Str → Prop where
  | used {row : FromTable} {c : Cte} (hr : InAnyway cs row) (hc : lastCte (declaredBy cs) row.names.name = some c) :
      Emitted cs row.names.name
  | dep {n m : Str} {c d : Cte} (hn : Emitted cs n) (hp : ¬ PlainTable cs n) (hc : lastCte (declaredBy cs) n = some c)
      (hm : m ∈ c.deps) (hd : lastCte (declaredBy cs) m = some d) : Emitted cs m

/-- The tables that are written: besides those that are in the query anyway, optional joins of CTEs that are written
for other tables. -/
def TableWritten (cs : List Call) (row : FromTable) : Prop :=
  InAnyway cs row ∨ row ∈ tablesBy cs ∧ row.names.alias = [] ∧ Emitted cs row.names.name

end Sqlf.Spec
