import Verif.Model.Eval
/-!
# Several goroutines building at the same time

The evaluator of Model/Eval.lean once more, as a program that stops at every access to a query
builder in memory (a `*sqlb.QueryBuilder` can be shared by the goroutines), and the interleavings
of such programs.  What a build keeps in its own root context (arguments, `used` flags) belongs to
its goroutine, and so do the lines it logs.  The Go code uses no locks and no atomics: an access is
a plain read or write of fields.

Simplifications: memory is sequentially consistent; the fields read at one place of the Go code
are read in one step, and so is a fragment of a query builder with its prefix; the columns
`buildOrders` appends in its loop are appended by one read and one write.  Fragments and columns
are values, as in Model/Eval.lean: no build writes to those it is given.
-/

namespace Sqlf

/-- The fields of a `QueryBuilder` (sqlb/query_builder.go:10-30) as memory locations.
`selectsPrefix` is `b.selects.Prefix`, `selects` the rest of that fragment. -/
inductive Field where
  | ctes | tables | selects | selectsPrefix | touches | conditions | orders | groupbys
  | distinct | limit | offset | unions | errors | debug
deriving DecidableEq, Repr

/-- A goroutine: it has finished, or is about to read fields of the query builder behind `r`, or to
assign to a field of it.  A dangling pointer cannot occur in Go; the access fails then. -/
inductive Th (α : Type) where
  | done (a : α)
  | read (r : Nat) (fs : List Field) (k : Option QB → Th α)
  | write (r : Nat) (f : Field) (u : QB → QB) (k : Bool → Th α)

namespace Th

/-- One thing after the other. -/
def bind : Th α → (α → Th β) → Th β
  | .done a, g => g a
  | .read r fs k, g => .read r fs fun o => (k o).bind g
  | .write r f u k, g => .write r f u fun ok => (k ok).bind g

end Th

/-- Memory after an assignment to the query builder behind `r`. -/
def assign (r : Nat) (u : QB → QB) (heap : List QB) : List QB :=
  match heap[r]? with
  | some b => heap.set r (u b)
  | none => heap

/-- The next step of a goroutine with the query builders in memory. -/
def Th.step : Th α → List QB → Th α × List QB
  | .done a, h => (.done a, h)
  | .read r _ k, h => (k h[r]?, h)
  | .write r _ u k, h => (k h[r]?.isSome, assign r u h)

/-- What belongs to one build: the arguments of its root context, the `used` flags of the current
fragment context, the log. -/
structure Priv where
  store : Store
  usedA : List Nat
  usedF : List Nat
  log : List Str

/-- Go code returning `(α, error)`, run by a goroutine. -/
def CM (α : Type) := Priv → Th (Out α × Priv)

namespace CM
def pure (a : α) : CM α := fun p => .done (.ok a, p)
def err (e : Err) : CM α := fun p => .done (.err e, p)
def panic (q : Panic) : CM α := fun p => .done (.panic q, p)
def oof : CM α := fun p => .done (.oof, p)
def ofOut (o : Out α) : CM α := fun p => .done (o, p)
/-- What happens after `m`, whatever it returns. -/
def after (m : CM α) (k : Out α → CM β) : CM β := fun p => (m p).bind fun r => k r.1 r.2
def bind (m : CM α) (k : α → CM β) : CM β := m.after fun
  | .ok a => k a
  | .err e => .err e
  | .panic q => .panic q
  | .oof => .oof
/-- `if err != nil { return fmt.Errorf("…%w", err) }` -/
def wrapErr (w : Str) (m : CM α) : CM α := m.after fun
  | .err e => .err (.wrap w e)
  | o => .ofOut o
end CM

/-- What can be evaluated recursively. -/
abbrev CRec := Ctx → Task → CM Str

/-- `CommitArg` (context_args.go:16-18; properties.go:60-63) -/
def ccommitArg (v : Val) : CM Str := fun p =>
  match p.store.commit v with
  | none => .done (.panic .unhashableKey, p)
  | some (t, st) => .done (.ok t, { p with store := st })

/-- `used = true` of the argument property `i` (property.go:38) -/
def cmarkA (i : Nat) : CM Unit := fun p => .done (.ok (), { p with usedA := i :: p.usedA })

/-- `used = true` of the fragment property `i` (property.go:38) -/
def cmarkF (i : Nat) : CM Unit := fun p => .done (.ok (), { p with usedF := i :: p.usedF })

/-- `mustFragment` (context_fragment.go:19-25) -/
def cmustFragment (ctx : Ctx) : CM Frame :=
  match ctx.frame with
  | some f => .pure f
  | none => .err .noFragment

/-- `c.Args.Build(ctx, i)` (properties.go:14-19, property.go:37-40, properties.go:60-63) -/
def cargBuild (fr : Frame) (i : Int) : CM Str :=
  match position i fr.args.length with
  | none => .err (.invalidIndex i)
  | some k => .bind (cmarkA k) fun _ =>
    match fr.args[k]? with
    | some v => ccommitArg v
    | none => .panic .indexOutOfRange

/-- `c.Fragments.Build(ctx, i)` (properties.go:14-19, property.go:37-40) -/
def cfragmentBuild (rec : CRec) (ctx : Ctx) (fr : Frame) (i : Int) : CM Str :=
  match position i fr.frags.length with
  | none => .err (.invalidIndex i)
  | some k => .bind (cmarkF k) fun _ =>
    match fr.frags[k]? with
    | some b => rec ctx (.build b)
    | none => .panic .indexOutOfRange

/-- `BuildQuery` called by user code (`withOwnStore`) -/
def cwithOwnStore (style : Style) (m : CM Str) : CM (Except Err (Str × List Val)) := fun p =>
  (m { p with store := .new style, usedA := [], usedF := [] }).bind fun r =>
  let p' := { r.2 with store := p.store, usedA := p.usedA, usedF := p.usedF }
  match r.1 with
  | .ok t => .done (.ok (.ok (t, r.2.store.args)), p')
  | .err e => .done (.ok (.error e), p')
  | .panic q => .done (.panic q, p')
  | .oof => .done (.oof, p')

/-- User code run with context `ctx`. -/
def crunProg (L : GoLib) (rec : CRec) (ctx : Ctx) : Prog → CM Str
  | .ret s => .pure s
  | .fail e => .err e
  | .panic m b => .panic (.value m b)
  | .commit v k => .bind (ccommitArg v) fun t => crunProg L rec ctx (k t)
  | .args k => fun p => crunProg L rec ctx (k p.store.args) p
  | .build b k => .after (rec ctx (.build b)) fun
    | .ok t => crunProg L rec ctx (k (.ok t))
    | .err e => crunProg L rec ctx (k (.error e))
    | .panic q => .panic q
    | .oof => .oof
  | .buildWith fm b k =>
    match contextWithFuncs L ctx fm with
    | .error e => crunProg L rec ctx (k (.error e))
    | .ok ctx' => .after (rec ctx' (.build b)) fun
      | .ok t => crunProg L rec ctx (k (.ok t))
      | .err e => crunProg L rec ctx (k (.error e))
      | .panic q => .panic q
      | .oof => .oof
  | .query style b k =>
    match newContext L with
    | none => .panic (.value [] false)
    | some own => .bind (cwithOwnStore style (rec own (.build b))) fun r => crunProg L rec ctx (k r)

/-- `joinCompatibility` (func.go:198-234) -/
def cjoinCompatible (rec : CRec) (f : FuncInfo) : CM Bool := fun p =>
  if !joinSignatureOk f then .done (.ok false, p)
  else
    (rec newEmptyContext.withNilFragment (.call f [.int 0])
      { p with store := .new question, usedA := [], usedF := [] }).bind fun r =>
    let p' := { r.2 with store := p.store, usedA := p.usedA, usedF := p.usedF }
    match r.1 with
    | .ok _ => .done (.ok false, p')
    | .err e => .done (.ok e.isInvalidIndex, p')
    | .panic q => .done (.panic q, p')
    | .oof => .done (.oof, p')

/-- The preparation loop of `#join` (func_builtin.go:42-60) -/
def cjoinCheck (rec : CRec) (ctx : Ctx) : List Expr → CM Nat
  | [] => .pure 0
  | .func name :: es =>
    match ctx.fn name with
    | none => .err (.joinUnknownFunc name)
    | some f => .bind (cjoinCompatible rec f) fun ok =>
      if ok then .bind (cjoinCheck rec ctx es) fun n => .pure (n + 1)
      else .err (.joinIncompatible name)
  | _ :: es => cjoinCheck rec ctx es

/-- The main loop of `#join` (func_builtin.go:68-94) -/
def cjoinLoop (rec : CRec) (ctx : Ctx) (es : List Expr) (sep : Str) (from_ to : Int) :
    Nat → Int → Str → CM Str
  | 0, _, _ => .oof
  | n + 1, i, acc => .after (rec ctx (.clause (joinInst es i))) fun
    | .ok t =>
      let acc := joinAppend sep acc t
      if to > 0 ∧ i ≥ to then .pure acc else cjoinLoop rec ctx es sep from_ to n (i + 1) acc
    | .err e =>
      if e.isInvalidIndex then
        if (from_ > 0 ∧ i = from_) ∨ (to > 0 ∧ i ≤ to) then .err e else .pure acc
      else .err e
    | .panic q => .panic q
    | .oof => .oof

/-- `funcJoin` (func_builtin.go:18-95) -/
def cfuncJoin (L : GoLib) (rec : CRec) (fuel : Nat) (ctx : Ctx) (tmpl sep : Str)
    (indexes : List Int) : CM Str :=
  if indexes.length > 2 then .err .joinTooManyArgs
  else
    let from_ := indexes.getD 0 0
    let to := indexes.getD 1 0
    if to > 0 ∧ from_ > to then .err .joinRange
    else
      match parse L tmpl with
      | .error e => .err (.wrap tmpl (.parse e))
      | .ok es => .bind (cjoinCheck rec ctx es) fun n =>
        if n = 0 then .err .joinNoFunc
        else cjoinLoop rec ctx es sep from_ to fuel (if from_ ≤ 0 then 1 else from_) []

/-- The body of a function (func_builtin.go:18-111 for the built-ins) -/
def ccallBody (L : GoLib) (rec : CRec) (fuel : Nat) (ctx : Ctx) (body : Body) (vs : List ArgVal) :
    CM Str :=
  match body with
  | .builtin .arg => .bind (cmustFragment ctx) fun fr => cargBuild fr ((vs.getD 0 .context).toInt L)
  | .builtin .fragment => .bind (cmustFragment ctx) fun fr =>
    cfragmentBuild rec ctx fr ((vs.getD 0 .context).toInt L)
  | .builtin .join =>
    cfuncJoin L rec fuel ctx (vs.getD 0 .context).toStr (vs.getD 1 .context).toStr
      ((vs.drop 2).map (·.toInt L))
  | .custom p => crunProg L rec ctx (p vs)

/-- `safeCall` (func_exec.go:74-106) -/
def csafeCall (m : CM Str) : CM Str := m.after fun
  | .panic q => .err q.toErr
  | o => .ofOut o

/-- `evalCall` (func_exec.go:16-70) -/
def cevalCall (L : GoLib) (rec : CRec) (fuel : Nat) (ctx : Ctx) (f : FuncInfo)
    (args : List CallArg) : CM Str :=
  if !f.arityOk args.length then .err (.wrongArgCount f.name)
  else
    let ts := f.paramTypes args.length
    match evalArgs ts args with
    | .err _ => .err (.argType f.name)
    | .panic q => .panic q
    | .oof => .oof
    | .ok vs =>
      .wrapErr f.name (csafeCall
        (if callAssignable ts vs then
          .bind (ccallBody L rec fuel ctx f.body vs) fun s => .pure (outString f.outs s)
        else .panic .reflectCall))

/-- `evalFunction` (func_exec.go:8-14) -/
def cevalFunction (L : GoLib) (rec : CRec) (fuel : Nat) (ctx : Ctx) (name : Str)
    (args : List CallArg) : CM Str :=
  match ctx.fn name with
  | none => .err (.undefinedFunc name)
  | some f => cevalCall L rec fuel ctx f args

/-- One case of the `switch` of `buildClause` (build.go:75-101) -/
def cevalExpr (L : GoLib) (rec : CRec) (fuel : Nat) (ctx : Ctx) : Expr → CM Str
  | .plain t => .pure t
  | .bindVar _ i => .bind (cmustFragment ctx) fun fr =>
    match position i fr.args.length with
    | none => .err (.bindVarIndex i)
    | some _ => cargBuild fr i
  | .call name args => cevalFunction L rec fuel ctx name args
  | .func name => .err (.forgotCall name)

/-- `buildClause` (build.go:72-104) -/
def cbuildClause (L : GoLib) (rec : CRec) (fuel : Nat) (ctx : Ctx) : List Expr → CM Str
  | [] => .pure []
  | e :: es => .bind (cevalExpr L rec fuel ctx e) fun s =>
      .bind (cbuildClause L rec fuel ctx es) fun t => .pure (s ++ t)

/-- `FragmentContext.checkUsage` (context_fragment.go:55-74) -/
def ccheckUsage (fr : Frame) (p : Priv) : Option Err :=
  match firstUnused p.usedA fr.args.length with
  | some i => some (.unused (some (i + 1)) ((firstUnused p.usedF fr.frags.length).map (· + 1)))
  | none =>
    match firstUnused p.usedF fr.frags.length with
    | some i => some (.unused none (some (i + 1)))
    | none => none

/-- `build` (build.go:59-69) and the usage check (build.go:37-43) -/
def cbuildBody (L : GoLib) (rec : CRec) (fuel : Nat) (ctx : Ctx) (f : Fragment) : CM Str :=
  match parse L f.raw with
  | .error e => .err (.wrap f.raw (.parse e))
  | .ok es =>
    .bind (.wrapErr f.raw (cbuildClause L rec fuel ctx es)) fun body p =>
      match ccheckUsage { args := f.args, frags := f.frags } p with
      | some e => .done (.err (.wrap f.raw e), p)
      | none => .done (.ok (decorate f.pre f.suf body), p)

/-- `(*Fragment).BuildFragment` (build.go:25-56), with `used` flags of its own
(context_fragment.go:43-52) -/
def cbuildFragment (L : GoLib) (rec : CRec) (fuel : Nat) (ctx : Ctx) (f : Fragment) : CM Str := fun p =>
  (cbuildBody L rec fuel (ctx.withFragment f) f { p with usedA := [], usedF := [] }).bind fun r =>
    .done (r.1, { r.2 with usedA := p.usedA, usedF := p.usedF })

/-! ## sqlb.QueryBuilder -/

/-- Reading fields of the query builder behind a pointer. -/
def readQB (r : Nat) (fs : List Field) : CM QB := fun p => .read r fs fun
  | some b => .done (.ok b, p)
  | none => .done (.panic .nilDereference, p)

/-- Assigning to a field of the query builder behind a pointer. -/
def writeQB (r : Nat) (f : Field) (u : QB → QB) : CM Unit := fun p => .write r f u fun
  | true => .done (.ok (), p)
  | false => .done (.panic .nilDereference, p)

/-- The loop collecting `Some` results. -/
def ccollectM (f : α → CM (Option Str)) : List α → CM (List Str)
  | [] => .pure []
  | a :: as => .bind (f a) fun o => .bind (ccollectM f as) fun l => .pure (o.toList ++ l)

/-- `buildCTEs` (sqlb/query_builder_build.go:121-146) -/
def cbuildCTEs (rec : CRec) (ctx : Ctx) (b : QB) (dep : Deps) : CM Str :=
  .bind (ccollectM (fun (c : Cte) =>
      if (⟨c.name, []⟩ : TableAliased) ∉ dep then .pure none
      else .bind (.wrapErr c.name (rec ctx (.build c.builder))) fun q =>
        .pure (if q = [] then none else some (c.name ++ lit " AS (" ++ q ++ lit ")"))) b.ctes)
    fun clauses =>
      .pure (if clauses.length = 0 then [] else lit "With " ++ strJoin (lit ", ") clauses)

/-- `buildFrom` (sqlb/query_builder_build.go:171-184) -/
def cbuildFrom (L : GoLib) (rec : CRec) (fuel : Nat) (ctx : Ctx) (b : QB) (dep : Deps) : CM Str :=
  .bind (ccollectM (fun (t : FromTable) =>
      if b.distinct ∧ t.optional ∧ t.names ∉ dep then .pure none
      else .bind (.wrapErr t.names.name (match t.fragment with
        | some f => cbuildFragment L rec fuel ctx f
        | none => .pure [])) fun c => .pure (some c)) b.tableList)
    fun tables => .pure (lit "FROM " ++ strJoin (lit " ") tables)

/-- `b.touches.AppendFragments(…)` (sqlb/query_builder_order.go:58, fragment.go:44-47): read, then
write. -/
def cappendTouches (r : Nat) (ts : List Builder) : CM Unit :=
  if ts = [] then .pure ()
  else .bind (readQB r [.touches]) fun b =>
    writeQB r .touches fun b' => { b' with touches := b.touches.appendFragments ts }

/-- `b.pushError(…)` (sqlb/query_builder_order.go:46, query_builder_errors.go:26-28): read, then
write. -/
def cpushErrors (r : Nat) (es : List Err) : CM Unit :=
  if es = [] then .pure ()
  else .bind (readQB r [.errors]) fun b =>
    writeQB r .errors fun b' => { b' with errors := b.errors ++ es }

/-- `buildOrders` (sqlb/query_builder_order.go:42-65) -/
def cbuildOrders (L : GoLib) (rec : CRec) (fuel : Nat) (ctx : Ctx) (r : Nat) : CM Str :=
  .bind (readQB r [.orders, .distinct]) fun b =>
  let items := orderItems b.distinct 0 b.orders
  .bind (cappendTouches r items.2.1) fun _ =>
  .bind (cpushErrors r items.2.2) fun _ =>
  cbuildFragment L rec fuel ctx
    (((Fragment.F (joinRaw ", ")).withPrefix (lit "ORDER BY")).appendFragments items.1)

/-- `buildSelects` (sqlb/query_builder_build.go:148-169) -/
def cbuildSelects (L : GoLib) (rec : CRec) (fuel : Nat) (ctx : Ctx) (r : Nat) : CM Str :=
  .bind (readQB r [.distinct]) fun b =>
  let prefix_ := if b.distinct then lit "SELECT DISTINCT" else lit "SELECT"
  .bind (writeQB r .selectsPrefix fun b => { b with selects := b.selects.withPrefix prefix_ }) fun _ =>
  .bind (readQB r [.selects, .selectsPrefix]) fun b =>
  .bind (cbuildFragment L rec fuel ctx b.selects) fun sel =>
  .bind (readQB r [.touches]) fun b =>
  .bind (cbuildFragment L rec fuel ctx b.touches) fun touches =>
  if sel = [] then .err .noColumns
  else .pure (if touches = [] then sel else sel ++ lit ", " ++ touches)

/-- `buildUnion` (sqlb/query_builder_build.go:186-199) -/
def cbuildUnion (rec : CRec) (ctx : Ctx) (unions : List Builder) : CM Str :=
  .bind (ccollectM (fun u => .bind (rec ctx (.build u)) fun q =>
      .pure (if q = [] then none else some q)) unions)
    fun clauses => .pure (lit "UNION (" ++ strJoin (lit ") UNION (") clauses ++ lit ")")

/-- Debug logging (sqlb/query_builder_build.go:111-117) -/
def cdebugLog (L : GoLib) (query : Str) : CM Unit := fun p =>
  match interpolate L rfc3339 query p.store.args with
  | .ok t => .done (.ok (), { p with log := p.log ++ [t] })
  | .err _ => .done (.ok (), { p with log := p.log ++ [[]] })
  | .panic q => .done (.panic q, p)
  | .oof => .done (.oof, p)

/-- `buildInternal` (sqlb/query_builder_build.go:38-119); the errors are looked at first (43-45), the
dependencies are collected (sqlb/query_builder_dependecy.go:15-55) from the fields named there. -/
def cbuildInternal (L : GoLib) (rec : CRec) (fuel : Nat) (ctx : Ctx) (r : Nat) : CM Str :=
  .bind (readQB r [.errors]) fun b =>
  if b.errors.length ≠ 0 then .err (anyError b.errors)
  else
  .bind (readQB r [.selects, .touches, .conditions, .orders, .groupbys, .distinct, .tables, .ctes]) fun b =>
  .bind (.ofOut b.collectDependencies) fun dep =>
  .bind (readQB r [.ctes]) fun b =>
  .bind (cbuildCTEs rec ctx b dep) fun sq =>
  .bind (readQB r [.tables, .distinct]) fun b =>
  .bind (cbuildFrom L rec fuel ctx b dep) fun from_ =>
  .bind (readQB r [.conditions]) fun b =>
  .bind (cbuildFragment L rec fuel ctx b.conditions) fun where_ =>
  .bind (readQB r [.groupbys]) fun b =>
  .bind (cbuildFragment L rec fuel ctx b.groupbys) fun groupby =>
  .bind (cbuildOrders L rec fuel ctx r) fun order =>
  .bind (readQB r [.limit, .offset]) fun b =>
  let limit := if b.limit > 0 then [lit "LIMIT " ++ itoa b.limit] else []
  let offset := if b.offset > 0 then [lit "OFFSET " ++ itoa b.offset] else []
  .bind (cbuildSelects L rec fuel ctx r) fun sel =>
  let clauses := nonEmpty sq ++ [sel] ++ nonEmpty from_ ++ nonEmpty where_ ++ nonEmpty groupby
    ++ nonEmpty order ++ limit ++ offset
  let query := trimSpace (strJoin (lit " ") clauses)
  .bind (readQB r [.unions]) fun b =>
  .bind (if b.unions.length > 0 then
      .bind (cbuildUnion rec ctx b.unions) fun union =>
        .pure (trimSpace (query ++ lit " " ++ union))
    else .pure query) fun query =>
  .bind (readQB r [.debug]) fun b =>
  .bind (if b.debug then cdebugLog L query else .pure ()) fun _ =>
  .pure query

/-- `b.BuildFragment(ctx)` for every kind of builder: sqlf.Fragment (build.go:25-56),
sqlb.Column (sqlb/table_column.go:22-24), sqlb.Table (sqlb/table.go:15-17), sqlb.TableAliased
(sqlb/table_aliased.go:8-10), sqlb.QueryBuilder (sqlb/query_builder_build.go:28-30, 39-41),
user code. -/
def cbuildBuilder (L : GoLib) (rec : CRec) (fuel : Nat) (ctx : Ctx) : Builder → CM Str
  | .nil => .panic .nilDereference
  | .nilFrag => .pure []
  | .frag f => cbuildFragment L rec fuel ctx f
  | .nilColumn => .panic .nilDereference
  | .columnNilFrag _ => .pure []
  | .column _ f => cbuildFragment L rec fuel ctx f
  | .table t => .pure t
  | .aliased n a => .pure (TableAliased.appliedName ⟨n, a⟩)
  | .nilQb => .pure []
  | .qb r => cbuildInternal L rec fuel ctx r
  | .custom p => crunProg L rec ctx p

/-- One level of recursion. -/
def cstep (L : GoLib) (rec : CRec) (fuel : Nat) : CRec := fun ctx t =>
  match t with
  | .build b => cbuildBuilder L rec fuel ctx b
  | .clause es => cbuildClause L rec fuel ctx es
  | .call f args => cevalCall L rec fuel ctx f args

/-- The evaluator with fuel. -/
def crun (L : GoLib) : Nat → CRec
  | 0 => fun _ _ => .oof
  | n + 1 => cstep L (crun L n) n

/-- A goroutine that calls `BuildQuery` (build.go:14-22, sqlb/query_builder_build.go:17-25) once:
its result, and what was logged. -/
def buildThread (L : GoLib) (fuel : Nat) (b : Builder) (style : Style) :
    Th (Out (Str × List Val) × List Str) :=
  match newContext L with
  | none => .done (.panic (.value [] false), [])
  | some ctx =>
    (crun L fuel ctx (.build b) { store := .new style, usedA := [], usedF := [], log := [] }).bind fun r =>
      match r.1 with
      | .ok q => .done (.ok (q, r.2.store.args), r.2.log)
      | .err e => .done (.err e, r.2.log)
      | .panic p => .done (.panic p, r.2.log)
      | .oof => .done (.oof, r.2.log)

/-! ## Goroutines and schedules -/

/-- Goroutines and the query builders they share. -/
structure Sys (α : Type) where
  heap : List QB
  threads : List (Th α)

/-- Goroutine `i` makes one step. -/
def Sys.step (s : Sys α) (i : Nat) : Sys α :=
  match s.threads[i]? with
  | some t => { heap := (t.step s.heap).2, threads := s.threads.set i (t.step s.heap).1 }
  | none => s

/-- The goroutines make steps in the given order. -/
def Sys.run (s : Sys α) : List Nat → Sys α
  | [] => s
  | i :: is => (s.step i).run is

/-- The result of goroutine `i`, if it has finished. -/
def Sys.result (s : Sys α) (i : Nat) : Option α :=
  match s.threads[i]? with
  | some (.done a) => some a
  | _ => none

end Sqlf
