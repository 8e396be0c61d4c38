import Verif.Model.Funcs
/-!
# package sqlb: QueryBuilder operations and dependency analysis

Model of sqlb/query_builder.go, query_builder_join.go, query_builder_where.go,
query_builder_order.go (OrderBy), query_builder_with.go, query_builder_errors.go,
query_builder_dependecy.go, table.go, table_aliased.go, table_column.go and util.go.
Building is in `Verif.Model.Eval`.  Fragments are modelled by value, so the mutation of the
caller's `on` fragment by `on.WithPrefix("ON")` (query_builder_join.go:106) and aliasing
between slices of fragments are not modelled here but in `Verif.Model.Memory`.
-/

namespace Sqlf

/-! ## tables and columns -/

/-- `preBuildColumn` (sqlb/table.go:33-41) -/
def preBuildColumn (t name : Str) : Str :=
  if name = [] then [] else if t = [] then name else t ++ lit "." ++ name

/-- `Table.Column` (sqlb/table.go:26-31) -/
def tableColumn (t name : Str) : Builder := .column t (.F (preBuildColumn t name))

/-- `Table.AnonymousColumn` (sqlb/table.go:63-68) -/
def tableAnonymousColumn (t name : Str) : Builder := .column t (.F name)

/-- `TableAliased.Column` (sqlb/table_aliased.go:53-55) -/
def TableAliased.column (t : TableAliased) (name : Str) : Builder := tableColumn t.appliedName name

/-- `TableAliased.AnonymousColumn` (sqlb/table_aliased.go:73-75) -/
def TableAliased.anonymousColumn (t : TableAliased) (name : Str) : Builder :=
  tableAnonymousColumn t.appliedName name

/-- `ExprColumn` (sqlb/table_column.go:41-45) -/
def exprColumn (f : Option Fragment) : Builder :=
  match f with
  | some f => .column [] f
  | none => .columnNilFrag []

/-- `Table.Columns` (sqlb/table.go:50-56) -/
def tableColumns (t : Str) (names : List Str) : List Builder := names.map (tableColumn t)

/-- `Table.AnonymousColumns` (sqlb/table.go:76-82) -/
def tableAnonymousColumns (t : Str) (names : List Str) : List Builder := names.map (tableAnonymousColumn t)

/-- `TableAliased.Columns` (sqlb/table_aliased.go:64-66) -/
def TableAliased.columns (t : TableAliased) (names : List Str) : List Builder := tableColumns t.appliedName names

/-- `TableAliased.AnonymousColumns` (sqlb/table_aliased.go:83-85) -/
def TableAliased.anonymousColumns (t : TableAliased) (names : List Str) : List Builder :=
  tableAnonymousColumns t.appliedName names

/-- `TableAliased.WithAlias` (sqlb/table_aliased.go:26-31) -/
def TableAliased.withAlias (t : TableAliased) (alias : Str) : TableAliased := ⟨t.name, alias⟩

/-- `ExprColumns` (sqlb/table_column.go:48-54) -/
def exprColumns (fs : List (Option Fragment)) : List Builder := fs.map exprColumn

/-! ## operations on a QueryBuilder -/

/-- Raw of the list clauses (sqlb/query_builder.go:43-46, query_builder_order.go:43) -/
def joinRaw (sep : String) : Str := lit "#join('#fragment', '" ++ lit sep ++ lit "')"

/-- `NewQueryBuilder` (sqlb/query_builder.go:39-48) -/
def QB.new : QB :=
  { ctes := [], cells := [], tables := [], tablesDict := [],
    selects := (Fragment.F (joinRaw ", ")).withPrefix (lit "SELECT"),
    touches := .F (joinRaw ", "),
    conditions := (Fragment.F (joinRaw " AND ")).withPrefix (lit "WHERE"),
    orders := [],
    groupbys := (Fragment.F (joinRaw ", ")).withPrefix (lit "GROUP BY"),
    distinct := false, limit := 0, offset := 0, unions := [], errors := [], debug := false }

/-- `err.Error()` of the errors that are pushed (sqlb/query_builder_join.go:12, 83, query_builder_order.go:46) -/
def errorText : Err → Str
  | .builder msg => msg
  | _ => []

/-- `anyError` (sqlb/query_builder_errors.go:12-24) with the pushed errors; not called if there are none -/
def anyError (errors : List Err) : Err :=
  .collected (lit "collected errors: \n" ++ (errors.map fun e => lit " - " ++ errorText e ++ lit "\n").flatten)

namespace QB

/-- `Distinct` (sqlb/query_builder.go:51-54) -/
def setDistinct (b : QB) : QB := { b with distinct := true }

/-- `Select` (sqlb/query_builder.go:57-63; `convertFragmentBuilders`, sqlb/util.go:5-11, changes the type only) -/
def select (b : QB) (columns : List Builder) : QB :=
  if columns.length = 0 then b else { b with selects := b.selects.withFragments columns }

/-- `Limit` (sqlb/query_builder.go:66-71) -/
def setLimit (b : QB) (n : Int) : QB := if n > 0 then { b with limit := n } else b

/-- `Offset` (sqlb/query_builder.go:74-79) -/
def setOffset (b : QB) (n : Int) : QB := if n > 0 then { b with offset := n } else b

/-- `GroupBy` (sqlb/query_builder.go:82-87) -/
def groupBy (b : QB) (columns : List Builder) : QB :=
  { b with groupbys := b.groupbys.appendFragments columns }

/-- `Union` (sqlb/query_builder.go:92-95) -/
def union (b : QB) (bs : List Builder) : QB := { b with unions := b.unions ++ bs }

/-- `OrderBy` (sqlb/query_builder_order.go:37-40) -/
def orderBy (b : QB) (column : Builder) (order : Nat) : QB :=
  { b with orders := b.orders ++ [{ column, order }] }

/-- `With` (sqlb/query_builder_with.go:27-36) -/
def with_ (b : QB) (name : Str) (builder : Builder) (deps : List Str) : QB :=
  { b with ctes := b.ctes ++ [{ name, deps, builder }] }

/-- `Where` (sqlb/query_builder_where.go:15-21) -/
def where_ (b : QB) (s : Option Fragment) : QB :=
  match s with
  | none => b
  | some f => { b with conditions := b.conditions.appendFragments [.frag f] }

/-- `Where2` (sqlb/query_builder_where.go:34-41) -/
def where2 (b : QB) (column : Builder) (op : Str) (arg : Val) : QB :=
  let f := ((Fragment.F (lit "#f1" ++ op ++ lit "$1")).withFragments [column]).withArgs [arg]
  { b with conditions := b.conditions.appendFragments [.frag f] }

/-- `WhereIn` and `WhereNotIn` (sqlb/query_builder_where.go:44-59) -/
def whereInOp (b : QB) (op : Str) (column : Builder) (list : Val) : Out QB :=
  match argsFlatted [list] with
  | .ok args => .ok (b.where_ (some (((Fragment.F
      (lit "#f1 " ++ op ++ lit " (#join('#arg', ', '))")).withFragments [column]).withArgs args)))
  | .err e => .err e
  | .panic p => .panic p
  | .oof => .oof

/-- `WhereIn` (sqlb/query_builder_where.go:44-50) -/
def whereIn (b : QB) (column : Builder) (list : Val) : Out QB := b.whereInOp (lit "IN") column list

/-- `WhereNotIn` (sqlb/query_builder_where.go:53-59) -/
def whereNotIn (b : QB) (column : Builder) (list : Val) : Out QB :=
  b.whereInOp (lit "NOT IN") column list

/-- `pushError` (sqlb/query_builder_errors.go:8-10) -/
def pushError (b : QB) (e : Err) : QB := { b with errors := b.errors ++ [e] }

/-- `b.tablesDict[t]` as a pointer -/
def dictGet (b : QB) (t : Str) : Option Nat := (b.tablesDict.find? fun p => p.1 = t).map (·.2)

/-- The table text of `From` and `join` (sqlb/query_builder_join.go:15-18, 98-101) -/
def tableAndAlias (t : TableAliased) : Str :=
  if t.alias ≠ [] then t.name ++ lit " AS " ++ t.alias else t.name

/-- `From` (sqlb/query_builder_join.go:10-31) -/
def from_ (b : QB) (t : TableAliased) : QB :=
  if t.name = [] then b.pushError (.builder (lit "from table is empty"))
  else
    let ptr := b.cells.length
    let cell : FromTable := { names := t, fragment := some (.F (tableAndAlias t)), optional := false }
    { b with
      cells := b.cells ++ [cell]
      tables := if b.tables.length = 0 then b.tables ++ [ptr] else b.tables.set 0 ptr
      tablesDict := (t.appliedName, ptr) :: b.tablesDict }

/-- `join` (sqlb/query_builder_join.go:81-117).  `on = none` is a nil `*Fragment`: its
`WithPrefix` assigns to a field of a nil pointer (106). -/
def join (b : QB) (joinStr : Str) (t : TableAliased) (on : Option Fragment) (optional : Bool) :
    Out QB :=
  if t.name = [] then .ok (b.pushError (.builder (lit "join table name is empty")))
  else
    let b := if b.tables.length = 0 then
        { b with cells := b.cells ++ [⟨⟨[], []⟩, none, false⟩], tables := b.tables ++ [b.cells.length] }
      else b
    match on with
    | none => .panic .nilDereference
    | some on =>
      let cell : FromTable :=
        { names := t
          fragment := some (.Ff (joinStr ++ lit " " ++ tableAndAlias t ++ lit " #f1")
            [.frag (on.withPrefix (lit "ON"))])
          optional := optional }
      match b.dictGet t.appliedName with
      | some ptr => .ok { b with cells := b.cells.set ptr cell }
      | none =>
        let ptr := b.cells.length
        .ok { b with
          cells := b.cells ++ [cell]
          tables := b.tables ++ [ptr]
          tablesDict := (t.appliedName, ptr) :: b.tablesDict }

/-- `InnerJoin` (sqlb/query_builder_join.go:34-36) -/
def innerJoin (b : QB) (t : TableAliased) (on : Option Fragment) : Out QB :=
  b.join (lit "INNER JOIN") t on false
/-- `LeftJoin` (sqlb/query_builder_join.go:39-41) -/
def leftJoin (b : QB) (t : TableAliased) (on : Option Fragment) : Out QB :=
  b.join (lit "LEFT JOIN") t on false
/-- `LeftJoinOptional` (sqlb/query_builder_join.go:61-63) -/
def leftJoinOptional (b : QB) (t : TableAliased) (on : Option Fragment) : Out QB :=
  b.join (lit "LEFT JOIN") t on true
/-- `RightJoin` (sqlb/query_builder_join.go:66-68) -/
def rightJoin (b : QB) (t : TableAliased) (on : Option Fragment) : Out QB :=
  b.join (lit "RIGHT JOIN") t on false
/-- `FullJoin` (sqlb/query_builder_join.go:71-73) -/
def fullJoin (b : QB) (t : TableAliased) (on : Option Fragment) : Out QB :=
  b.join (lit "FULL JOIN") t on false
/-- `CrossJoin` (sqlb/query_builder_join.go:76-78) -/
def crossJoin (b : QB) (t : TableAliased) : Out QB := b.join (lit "CROSS JOIN") t none false

/-- The table a pointer of `b.tables` or `b.tablesDict` points to. -/
def cell (b : QB) (ptr : Nat) : FromTable := b.cells.getD ptr ⟨⟨[], []⟩, none, false⟩

/-- The `fromTable`s of `b.tables`, in order. -/
def tableList (b : QB) : List FromTable := b.tables.map b.cell

/-- `b.ctesDict[name]`: the last CTE declared with that name -/
def cteGet (b : QB) (name : Str) : Option Cte := b.ctes.reverse.find? fun c => c.name = name

end QB

/-! ## dependencies -/

/-- `collectTable` (sqlb/query_builder_dependecy.go:119-125); `dict` is the set of `tables` -/
def collectTable (t : Str) (tables : List Str) : List Str :=
  if t ∈ tables then tables else tables ++ [t]

mutual
/-- One iteration of `extractTables2` (sqlb/query_builder_dependecy.go:88-117).  `none` = nil
pointer dereference: a nil `*Fragment` (94), or a column without table and fragment (103). -/
def extractB : Builder → List Str → Option (List Str)
  | .nil, acc => some acc
  | .nilFrag, _ => none
  | .frag (.mk _ _ fs _ _), acc => extractL fs acc
  | .nilColumn, acc => some acc
  | .columnNilFrag t, acc => if t ≠ [] then some (collectTable t acc) else none
  | .column t (.mk _ _ fs _ _), acc => if t ≠ [] then some (collectTable t acc) else extractL fs acc
  | .table t, acc => some (collectTable t acc)
  | .aliased n a, acc => some (collectTable (TableAliased.appliedName ⟨n, a⟩) acc)
  | .nilQb, acc => some acc
  | .qb _, acc => some acc
  | .custom _, acc => some acc
/-- `extractTables2` (sqlb/query_builder_dependecy.go:88-117) -/
def extractL : List Builder → List Str → Option (List Str)
  | [], acc => some acc
  | b :: bs, acc =>
    match extractB b acc with
    | none => none
    | some acc => extractL bs acc
end

/-- `extractTables` (sqlb/query_builder_dependecy.go:81-86) -/
def extractTables (bs : List Builder) : Out (List Str) :=
  match extractL bs [] with
  | none => .panic .nilDereference
  | some ts => .ok ts

/-- The set `deps : map[TableAliased]bool`. -/
abbrev Deps := List TableAliased

/-- A `for` loop updating an accumulator, stopping at the first outcome that is not `ok`. -/
def foldOut (f : α → β → Out α) : α → List β → Out α
  | a, [] => .ok a
  | a, x :: xs =>
    match f a x with
    | .ok a => foldOut f a xs
    | o => o

namespace QB

/-- `collectDepsFromTable` (sqlb/query_builder_dependecy.go:60-79).  Fuel bounds the depth of
the recursion; every level adds a table to `dep`. -/
def depsFromTable (b : QB) : Nat → Deps → Str → Out Deps
  | 0, _, _ => .oof
  | n + 1, dep, t =>
    match b.dictGet t with
    | none => .err (.fromUndefined t)
    | some ptr =>
      let from_ := b.cell ptr
      if from_.names ∈ dep then .ok dep
      else
        let dep := from_.names :: dep
        let fts := match from_.fragment with
          | some f => extractTables [.frag f]
          | none => .panic .nilDereference
        match fts with
        | .ok fts => foldOut (b.depsFromTable n) dep (fts.filter (· ≠ t))
        | .err e => .err e
        | .panic p => .panic p
        | .oof => .oof

/-- `collectDepsFromCTE` (sqlb/query_builder_dependecy.go:43-58); it never returns an error.
Fuel bounds the depth of the recursion; every level adds a CTE to `deps`. -/
def depsFromCte (b : QB) : Nat → Deps → Cte → Out Deps
  | 0, _, _ => .oof
  | n + 1, deps, c =>
    if (⟨c.name, []⟩ : TableAliased) ∈ deps then .ok deps
    else foldOut (b.depsFromCte n) (⟨c.name, []⟩ :: deps) (c.deps.filterMap b.cteGet)

/-- Fuel for the two recursions: one more than the number of keys that can be added. -/
def depFuel (b : QB) : Nat := b.tablesDict.length + b.ctes.length + 1

/-- The "mark for CTEs" loop (sqlb/query_builder_dependecy.go:32-39) -/
def markCtes (b : QB) : Deps → List FromTable → Out Deps :=
  foldOut fun deps t =>
    if b.distinct ∧ t.optional ∧ t.names ∉ deps then .ok deps
    else
      match b.cteGet t.names.name with
      | some c => b.depsFromCte b.depFuel deps c
      | none => .ok deps

/-- The builders whose table references are collected (sqlb/query_builder_dependecy.go:11-19) -/
def depRoots (b : QB) : List Builder :=
  [.frag b.selects, .frag b.touches, .frag b.conditions, .frag b.groupbys]
    ++ b.orders.map (·.column)

/-- `collectDependencies` (sqlb/query_builder_dependecy.go:10-41); `b.tables[0]` panics if
there is no table. -/
def collectDependencies (b : QB) : Out Deps :=
  match extractTables b.depRoots with
  | .ok tables =>
    match b.tableList with
    | [] => .panic .indexOutOfRange
    | main :: _ =>
      match foldOut (b.depsFromTable b.depFuel) [main.names] tables with
      | .ok deps => b.markCtes deps b.tableList
      | o => o
  | .err e => .err e
  | .panic p => .panic p
  | .oof => .oof

end QB

end Sqlf
