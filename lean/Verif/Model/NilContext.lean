import Verif.Model.Eval
/-!
# `BuildFragment(nil)`: building with a nil context

The same functions of /repo as in Model/Eval.lean, for `ctx == nil`.  A context that user code makes
by `ContextWithFuncs(nil, …)` has no argument store and no built-in functions; builds with it are
left open (`orphan`): the theorems hold whatever they do.
-/

namespace Sqlf

/-- build.go:30 -/
def nilContextErr : Err := .builder (lit "nil context")

/-- `Fragment.BuildFragment` for a fragment that is not nil (build.go:25-31) -/
def nilFragment (_ : Fragment) : M Str := .err nilContextErr

/-- User code run with a nil context.  `CommitArg` and `Args` follow the parents of the context
(contex_with.go:22-28; context_args.go:8-18), which dereferences it.  `BuildQuery` makes a context of its own
(`rec` is the build with it). -/
def nilProg (L : GoLib) (rec : Rec) (nrec : Builder → M Str)
    (orphan : List (Str × FuncVal) → Builder → M (Except Err Str)) : Prog → M Str
  | .ret s => .pure s
  | .fail e => .err e
  | .panic m b => .panic (.value m b)
  | .commit _ _ => .panic .nilDereference
  | .args _ => .panic .nilDereference
  | .build b k => fun s =>
    match nrec b s with
    | (.ok t, s') => nilProg L rec nrec orphan (k (.ok t)) s'
    | (.err e, s') => nilProg L rec nrec orphan (k (.error e)) s'
    | (.panic p, s') => (.panic p, s')
    | (.oof, s') => (.oof, s')
  | .buildWith fm b k => M.bind (orphan fm b) fun r => nilProg L rec nrec orphan (k r)
  | .query style b k =>
    match newContext L with
    | none => .panic (.value [] false)
    | some own => M.bind (withOwnStore style (rec own (.build b))) fun r =>
      nilProg L rec nrec orphan (k r)

/-- `buildCTEs` (sqlb/query_builder_build.go:121-146) -/
def nilCTEs (nrec : Builder → M Str) (b : QB) (dep : Deps) : M Str :=
  M.bind (collectM (fun (c : Cte) =>
      if (⟨c.name, []⟩ : TableAliased) ∉ dep then .pure none
      else M.bind (.wrapErr c.name (nrec c.builder)) fun q =>
        .pure (if q = [] then none else some (c.name ++ lit " AS (" ++ q ++ lit ")"))) b.ctes)
    fun clauses =>
      .pure (if clauses.length = 0 then [] else lit "With " ++ strJoin (lit ", ") clauses)

/-- `buildFrom` (sqlb/query_builder_build.go:171-184) -/
def nilFrom (b : QB) (dep : Deps) : M Str :=
  M.bind (collectM (fun (t : FromTable) =>
      if b.distinct ∧ t.optional ∧ t.names ∉ dep then .pure none
      else M.bind (.wrapErr t.names.name (match t.fragment with
        | some f => nilFragment f
        | none => .pure [])) fun c => .pure (some c)) b.tableList)
    fun tables => .pure (lit "FROM " ++ strJoin (lit " ") tables)

/-- `buildOrders` (sqlb/query_builder_order.go:42-65) -/
def nilOrders (r : Nat) : M Str :=
  M.bind (getQB r) fun b =>
  let items := orderItems b.distinct 0 b.orders
  M.bind (modifyQB r fun b =>
    { b with touches := b.touches.appendFragments items.2.1, errors := b.errors ++ items.2.2 })
  fun _ =>
  nilFragment (((Fragment.F (joinRaw ", ")).withPrefix (lit "ORDER BY")).appendFragments items.1)

/-- `buildSelects` (sqlb/query_builder_build.go:148-169) -/
def nilSelects (r : Nat) : M Str :=
  M.bind (modifyQB r fun b =>
    let prefix_ := if b.distinct then lit "SELECT DISTINCT" else lit "SELECT"
    { b with selects := b.selects.withPrefix prefix_ }) fun _ =>
  M.bind (getQB r) fun b =>
  M.bind (nilFragment b.selects) fun sel =>
  M.bind (nilFragment b.touches) fun touches =>
  if sel = [] then .err .noColumns
  else .pure (if touches = [] then sel else sel ++ lit ", " ++ touches)

/-- `buildUnion` (sqlb/query_builder_build.go:186-199) -/
def nilUnion (nrec : Builder → M Str) (unions : List Builder) : M Str :=
  M.bind (collectM (fun u => M.bind (nrec u) fun q =>
      .pure (if q = [] then none else some q)) unions)
    fun clauses => .pure (lit "UNION (" ++ strJoin (lit ") UNION (") clauses ++ lit ")")

/-- `buildInternal` (sqlb/query_builder_build.go:38-119).  For debug mode `ctx.Args()` dereferences the context. -/
def nilInternal (nrec : Builder → M Str) (r : Nat) : M Str :=
  M.bind (getQB r) fun b =>
  if b.errors.length ≠ 0 then .err (anyError b.errors)
  else
  M.bind (.ofOut b.collectDependencies) fun dep =>
  M.bind (nilCTEs nrec b dep) fun sq =>
  M.bind (getQB r) fun b =>
  M.bind (nilFrom b dep) fun from_ =>
  M.bind (getQB r) fun b =>
  M.bind (nilFragment b.conditions) fun where_ =>
  M.bind (nilFragment b.groupbys) fun groupby =>
  M.bind (nilOrders r) fun order =>
  M.bind (getQB r) fun b =>
  let limit := if b.limit > 0 then [lit "LIMIT " ++ itoa b.limit] else []
  let offset := if b.offset > 0 then [lit "OFFSET " ++ itoa b.offset] else []
  M.bind (nilSelects r) fun sel =>
  let clauses := nonEmpty sq ++ [sel] ++ nonEmpty from_ ++ nonEmpty where_ ++ nonEmpty groupby
    ++ nonEmpty order ++ limit ++ offset
  let query := trimSpace (strJoin (lit " ") clauses)
  M.bind (getQB r) fun b =>
  M.bind (if b.unions.length > 0 then
      M.bind (nilUnion nrec b.unions) fun union =>
        .pure (trimSpace (query ++ lit " " ++ union))
    else .pure query) fun query =>
  M.bind (getQB r) fun b =>
  if b.debug then .panic .nilDereference else .pure query

/-- `b.BuildFragment(nil)` for every kind of builder (build.go:25-31, sqlb/table_column.go:22-24,
sqlb/table.go:15-17, sqlb/table_aliased.go:8-10, sqlb/query_builder_build.go:28-30); the fuel is as in `run`. -/
def nilBuild (L : GoLib) (orphan : List (Str × FuncVal) → Builder → M (Except Err Str)) :
    Nat → Builder → M Str
  | 0, _ => fun s => (.oof, s)
  | n + 1, b =>
    match b with
    | .nil => .panic .nilDereference
    | .nilFrag => .pure []
    | .frag f => nilFragment f
    | .nilColumn => .panic .nilDereference
    | .columnNilFrag _ => .pure []
    | .column _ f => nilFragment f
    | .table t => .pure t
    | .aliased n a => .pure (TableAliased.appliedName ⟨n, a⟩)
    | .nilQb => .pure []
    | .qb r => nilInternal (nilBuild L orphan n) r
    | .custom p => nilProg L (run L n) (nilBuild L orphan n) orphan p

end Sqlf
