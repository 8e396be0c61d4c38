import Verif.Spec.Sqlb
/-!
# Exactly the tables and CTEs of a query, whatever names are used

No assumption is made about the calls: `From` may be called several times, and joins may have names of tables
given to `From`.
-/

namespace Sqlf.Spec

/-- The row of the main table: the one of the last `From`, or of the last join after it with the same name. -/
def mainRow : List Call → Option FromTable
  | [] => none
  | c :: cs => match mainRow cs with
    | some r => some r
    | none => (fromGiven c).map fun r => (rowOf r.names.appliedName cs).getD r

/-- The joins whose name has not been given to `From` before; `taken` are the names that have.  (Joins with other names
take the place of what was given to `From`, which is the main table, see `mainRow`, or no longer in the query.) -/
def freshJoins (taken : List Str) : List Call → List FromTable
  | [] => []
  | c :: cs => match fromGiven c, joinGiven c with
    | some r, _ => freshJoins (r.names.appliedName :: taken) cs
    | none, some r =>
      if r.names.appliedName ∈ taken then freshJoins taken cs else r :: freshJoins taken cs
    | none, none => freshJoins taken cs

/-- The rows of the FROM clause: main table (a blank row if it is missing) and joined tables. -/
def rowsBy (cs : List Call) : List FromTable :=
  if cs.filterMap gives = [] then []
  else (mainRow cs).getD ⟨⟨[], []⟩, none, false⟩ :: (freshJoins [] cs).foldl putIn []

/-- The name and alias of the main table. -/
def mainNames (cs : List Call) : Option TableAliased := (rowsBy cs).head?.map (·.names)

/-- The tables that are looked up: those the expressions refer to, and those the ON conditions of tables that are looked
up refer to.  The main table is not searched for an ON condition. -/
inductive LookedUp (cs : List Call) : Str → Prop where
  | root {t : Str} (h : t ∈ tableRefsL (expressionsOf cs)) : LookedUp cs t
  | on {t u : Str} {r : FromTable} (ht : LookedUp cs t) (hr : rowOf t cs = some r) (hm : some r.names ≠ mainNames cs)
      (hu : u ∈ rowRefs r) : LookedUp cs u

/-- Names and aliases that are in use: those of the main table and of the tables that are looked up. -/
def InUse (cs : List Call) (k : TableAliased) : Prop :=
  mainNames cs = some k ∨ ∃ t r, LookedUp cs t ∧ rowOf t cs = some r ∧ r.names = k

/-- Rows that are in the query by themselves: not an optional join of a DISTINCT query, or in use. -/
def RowStays (cs : List Call) (row : FromTable) : Prop :=
  row ∈ rowsBy cs ∧ (distinctIn cs = false ∨ row.optional = false ∨ InUse cs row.names)

/-- The names of the CTEs that are written: those in use (without alias) and those of rows that stay, and the
dependencies of those that are written, unless they are in use. -/
inductive CteWritten (cs : List Call) : Str → Prop where
  | used {n : Str} {c : Cte} (h : InUse cs ⟨n, []⟩) (hc : lastCte (declaredBy cs) n = some c) : CteWritten cs n
  | row {row : FromTable} {c : Cte} (hr : RowStays cs row) (hc : lastCte (declaredBy cs) row.names.name = some c) :
      CteWritten cs row.names.name
  | dep {n m : Str} {c d : Cte} (hn : CteWritten cs n) (hp : ¬ InUse cs ⟨n, []⟩) (hc : lastCte (declaredBy cs) n = some c)
      (hm : m ∈ c.deps) (hd : lastCte (declaredBy cs) m = some d) : CteWritten cs m

/-- The rows that are written: besides those that stay, optional joins of CTEs that are written for other tables. -/
def RowWritten (cs : List Call) (row : FromTable) : Prop :=
  RowStays cs row ∨ row ∈ rowsBy cs ∧ row.names.alias = [] ∧ CteWritten cs row.names.name

end Sqlf.Spec
