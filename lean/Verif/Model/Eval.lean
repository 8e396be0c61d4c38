import Verif.Model.Sqlb
/-!
# Building: fragments, preprocessing functions, `#join`, custom builders, query builders

Model of build.go, func_exec.go, func_builtin.go, func.go:198-234, property.go, properties.go,
context_fragment.go and sqlb/query_builder_build.go, query_builder_order.go (buildOrders).

The Go functions are mutually recursive through interfaces and through user code.  The model is
written with open recursion — every definition takes the recursive evaluator `rec` — and tied
at the end by `run`, whose fuel bounds the nesting depth (and the number of iterations of a
`#join` loop).  Out of fuel (`Out.oof`) stands for a Go call that has not returned yet.
-/

namespace Sqlf

/-- What can be evaluated recursively. -/
inductive Task where
  | build (b : Builder)                       -- `b.BuildFragment(ctx)`
  | clause (es : List Expr)                   -- `buildClause(ctx, clause)`
  | call (f : FuncInfo) (args : List CallArg) -- `evalCall(ctx, f, args)`

/-- The recursive evaluator. -/
abbrev Rec := Ctx → Task → M Str

/-! ## arguments and properties -/

/-- `CommitArg` (context_args.go:16-18; properties.go:60-63) -/
def commitArg (v : Val) : M Str := fun s =>
  match s.store.commit v with
  | none => (.panic .unhashableKey, s)
  | some (t, st) => (.ok t, { s with store := st })

/-- `used = true` of the argument property `i` (0-based) (property.go:38) -/
def markA (i : Nat) : M Unit := .modify fun s => { s with usedA := i :: s.usedA }

/-- `used = true` of the fragment property `i` (0-based) (property.go:38) -/
def markF (i : Nat) : M Unit := .modify fun s => { s with usedF := i :: s.usedF }

/-- `mustFragment` (context_fragment.go:19-25) -/
def mustFragment (ctx : Ctx) : M Frame :=
  match ctx.frame with
  | some f => .pure f
  | none => .err .noFragment

/-- `i < 1 || i > n` is false (build.go:83, properties.go:15): the 0-based position. -/
def position (i : Int) (n : Nat) : Option Nat :=
  if i < 1 ∨ i > n then none else some (i - 1).toNat

/-- `c.Args.Build(ctx, i)` (properties.go:14-19, property.go:37-40, properties.go:60-63) -/
def argBuild (fr : Frame) (i : Int) : M Str :=
  match position i fr.args.length with
  | none => .err (.invalidIndex i)
  | some k => do
    markA k
    match fr.args[k]? with
    | some v => commitArg v
    | none => .panic .indexOutOfRange

/-- `c.Fragments.Build(ctx, i)` (properties.go:14-19, property.go:37-40) -/
def fragmentBuild (rec : Rec) (ctx : Ctx) (fr : Frame) (i : Int) : M Str :=
  match position i fr.frags.length with
  | none => .err (.invalidIndex i)
  | some k => do
    markF k
    match fr.frags[k]? with
    | some b => rec ctx (.build b)
    | none => .panic .indexOutOfRange

/-- The unused property `Properties.checkUsage` reports (properties.go:22-29): the first index
below `n` that was not marked. -/
def firstUnused (used : List Nat) : Nat → Option Nat
  | 0 => none
  | n + 1 => match firstUnused used n with
    | some i => some i
    | none => if n ∈ used then none else some n

/-- `FragmentContext.checkUsage` (context_fragment.go:55-74): the first unused argument and the
first unused fragment, or nil if there is neither. -/
def checkUsage (fr : Frame) (s : St) : Option Err :=
  match firstUnused s.usedA fr.args.length with
  | some i => some (.unused (some (i + 1)) ((firstUnused s.usedF fr.frags.length).map (· + 1)))
  | none =>
    match firstUnused s.usedF fr.frags.length with
    | some i => some (.unused none (some (i + 1)))
    | none => none

/-! ## calling preprocessing functions -/

/-- `evalArg` (func_exec.go:108-142).  `none` = the error "can't assign".  Numbers are
converted by reflection, which panics if the parameter is not a number (an `int`, which only
`#join` supplies, also converts to a string type). -/
def evalArg : GoType → CallArg → Out ArgVal
  | .num k _, .num x => .ok (.num k (.num x))
  | .num k _, .int i => .ok (.num k (.int i))
  | .string _, .int i => .ok (.runeStr i)
  | _, .num _ => .panic .reflectConvert
  | _, .int _ => .panic .reflectConvert
  | .bool _, .bool b => .ok (.bool b)
  | .string _, .str s => .ok (.str s)
  | _, _ => .err (.argType [])

/-- The argument list of the call (func_exec.go:41-64): the parameter types in order, the
variadic element type repeated.  The caller has checked the count. -/
def evalArgs : List GoType → List CallArg → Out (List ArgVal)
  | t :: ts, a :: as =>
    match evalArg t a with
    | .ok v => match evalArgs ts as with
      | .ok vs => .ok (v :: vs)
      | .err e => .err e
      | .panic p => .panic p
      | .oof => .oof
    | .err e => .err e
    | .panic p => .panic p
    | .oof => .oof
  | _, _ => .ok []

/-- Parameter types without the leading context, the variadic element type repeated up to `n`
arguments (func_exec.go:43-64). -/
def FuncInfo.paramTypes (f : FuncInfo) (n : Nat) : List GoType :=
  let ts := if f.inContextFirst then f.ins.drop 1 else f.ins
  if f.variadic then
    let e := (ts.getLast?.map GoType.elem).getD (.other 0)
    ts.dropLast ++ List.replicate (n - (ts.length - 1)) e
  else ts

/-- The argument count check (func_exec.go:18-31).  A variadic function with a leading context
counted among the fixed parameters. -/
def FuncInfo.arityOk (f : FuncInfo) (nArgs : Nat) : Bool :=
  let nIn := if f.inContextFirst then f.nIn - 1 else f.nIn
  let nInFixed := if f.inContextFirst then f.nInFixed - 1 else f.nInFixed
  if f.variadic then nInFixed ≤ nArgs else nArgs = nIn

/-- `reflect.Value.Call` requires assignable argument types: a `bool` or `string` literal is not
assignable to a defined type of that kind (func_exec.go:85, 122-128; evaluated inside
`safeCall`). -/
def callAssignable : List GoType → List ArgVal → Bool
  | t :: ts, v :: vs =>
    (match t, v with
      | .string n, .str _ => n = 0
      | .bool n, .bool _ => n = 0
      | _, _ => true) && callAssignable ts vs
  | _, _ => true

/-- The integer an `int` parameter receives (`Convert` at func_exec.go:119). -/
def ArgVal.toInt (L : GoLib) : ArgVal → Int
  | .num _ (.num x) => x.toInt L
  | .num _ (.int i) => i
  | _ => 0

/-- The string a `string` parameter receives. -/
def ArgVal.toStr : ArgVal → Str
  | .str s => s
  | _ => []

/-- `BuildQuery` called by user code (build.go:14-22, sqlb/query_builder_build.go:17-25): the build `m`
with an argument store of its own.  The flags of the fragment being built are not touched. -/
def withOwnStore (style : Style) (m : M Str) : M (Except Err (Str × List Val)) := fun s =>
  let r := m { s with store := .new style, usedA := [], usedF := [] }
  let s' := { r.2 with store := s.store, usedA := s.usedA, usedF := s.usedF }
  match r.1 with
  | .ok t => (.ok (.ok (t, r.2.store.args)), s')
  | .err e => (.ok (.error e), s')
  | .panic p => (.panic p, s')
  | .oof => (.oof, s')

/-- User code run with context `ctx`. -/
def runProg (L : GoLib) (rec : Rec) (ctx : Ctx) : Prog → M Str
  | .ret s => .pure s
  | .fail e => .err e
  | .panic m b => .panic (.value m b)
  | .commit v k => M.bind (commitArg v) fun t => runProg L rec ctx (k t)
  | .args k => M.bind .get fun s => runProg L rec ctx (k s.store.args)
  | .build b k => fun s =>
    match rec ctx (.build b) s with
    | (.ok t, s') => runProg L rec ctx (k (.ok t)) s'
    | (.err e, s') => runProg L rec ctx (k (.error e)) s'
    | (.panic p, s') => (.panic p, s')
    | (.oof, s') => (.oof, s')
  | .buildWith fm b k =>
    match contextWithFuncs L ctx fm with
    | .error e => runProg L rec ctx (k (.error e))
    | .ok ctx' => fun s =>
      match rec ctx' (.build b) s with
      | (.ok t, s') => runProg L rec ctx (k (.ok t)) s'
      | (.err e, s') => runProg L rec ctx (k (.error e)) s'
      | (.panic p, s') => (.panic p, s')
      | (.oof, s') => (.oof, s')
  | .query style b k =>
    match newContext L with
    | none => .panic (.value [] false)
    | some own => M.bind (withOwnStore style (rec own (.build b))) fun r => runProg L rec ctx (k r)

/-- The signature part of `joinCompatibility` (func.go:200-225) -/
def joinSignatureOk (f : FuncInfo) : Bool :=
  let num (t : GoType) : Bool :=
    match (if f.variadic then t.elem else t) with
    | .num _ _ => true
    | _ => false
  f.outs.length = 2 && f.outs[1]? = some .error &&
  match f.ins with
  | [t] => num t
  | [_, t] => f.inContextFirst && num t
  | _ => false

/-- `joinCompatibility` (func.go:198-234); the result is "compatible".  The trial call runs in
a fresh context of its own; only effects on query builders survive it. -/
def joinCompatible (rec : Rec) (f : FuncInfo) : M Bool := fun s =>
  if !joinSignatureOk f then (.ok false, s)
  else
    let r := rec newEmptyContext.withNilFragment (.call f [.int 0])
      { s with store := .new question, usedA := [], usedF := [] }
    let s' := { r.2 with store := s.store, usedA := s.usedA, usedF := s.usedF }
    match r.1 with
    | .ok _ => (.ok false, s')
    | .err e => (.ok e.isInvalidIndex, s')
    | .panic p => (.panic p, s')
    | .oof => (.oof, s')

/-- The preparation loop of `#join` (func_builtin.go:42-60): check every function of the
template; the result is the number of functions (`len(calls)`). -/
def joinCheck (rec : Rec) (ctx : Ctx) : List Expr → M Nat
  | [] => .pure 0
  | .func name :: es =>
    match ctx.fn name with
    | none => .err (.joinUnknownFunc name)
    | some f => do
      let ok ← joinCompatible rec f
      if ok then
        let n ← joinCheck rec ctx es
        pure (n + 1)
      else .err (.joinIncompatible name)
  | _ :: es => joinCheck rec ctx es

/-- The template with every function called with index `i` (func_builtin.go:55-58, 69-71) -/
def joinInst (es : List Expr) (i : Int) : List Expr :=
  es.map fun
    | .func name => .call name [.int i]
    | e => e

/-- Appending one non-empty piece (func_builtin.go:84-89) -/
def joinAppend (sep acc s : Str) : Str :=
  if s ≠ [] then (if acc ≠ [] then acc ++ sep else acc) ++ s else acc

/-- The main loop of `#join` (func_builtin.go:68-94) -/
def joinLoop (rec : Rec) (ctx : Ctx) (es : List Expr) (sep : Str) (from_ to : Int) :
    Nat → Int → Str → M Str
  | 0, _, _ => fun s => (.oof, s)
  | n + 1, i, acc => fun s =>
    match rec ctx (.clause (joinInst es i)) s with
    | (.ok t, s') =>
      let acc := joinAppend sep acc t
      if to > 0 ∧ i ≥ to then (.ok acc, s') else joinLoop rec ctx es sep from_ to n (i + 1) acc s'
    | (.err e, s') =>
      if e.isInvalidIndex then
        if (from_ > 0 ∧ i = from_) ∨ (to > 0 ∧ i ≤ to) then (.err e, s') else (.ok acc, s')
      else (.err e, s')
    | (.panic p, s') => (.panic p, s')
    | (.oof, s') => (.oof, s')

/-- `funcJoin` (func_builtin.go:18-95); `fuel` bounds the iterations of the main loop -/
def funcJoin (L : GoLib) (rec : Rec) (fuel : Nat) (ctx : Ctx) (tmpl sep : Str)
    (indexes : List Int) : M Str :=
  if indexes.length > 2 then .err .joinTooManyArgs
  else
    let from_ := indexes.getD 0 0
    let to := indexes.getD 1 0
    if to > 0 ∧ from_ > to then .err .joinRange
    else
      match parse L tmpl with
      | .error e => .err (.wrap tmpl (.parse e))
      | .ok es => do
        let n ← joinCheck rec ctx es
        if n = 0 then .err .joinNoFunc
        else joinLoop rec ctx es sep from_ to fuel (if from_ ≤ 0 then 1 else from_) []

/-- The body of a function, applied to the evaluated arguments (without the context).  The three
built-ins are func_builtin.go:18-111. -/
def callBody (L : GoLib) (rec : Rec) (fuel : Nat) (ctx : Ctx) (body : Body) (vs : List ArgVal) :
    M Str :=
  match body with
  | .builtin .arg => do
    let fr ← mustFragment ctx
    argBuild fr ((vs.getD 0 .context).toInt L)
  | .builtin .fragment => do
    let fr ← mustFragment ctx
    fragmentBuild rec ctx fr ((vs.getD 0 .context).toInt L)
  | .builtin .join =>
    funcJoin L rec fuel ctx (vs.getD 0 .context).toStr (vs.getD 1 .context).toStr
      ((vs.drop 2).map (·.toInt L))
  | .custom p => runProg L rec ctx (p vs)

/-- What `safeCall` makes of the results (func_exec.go:86-105): no output is the empty string;
a function without error output cannot fail.  The outputs of a registered function are a string and an
error (`goodFunc`), so `convertString` and `convertError` (func_exec.go:144-170) return them as they are. -/
def outString (outs : List GoType) (s : Str) : Str := if outs.length = 0 then [] else s

/-- `safeCall` (func_exec.go:74-106): a panic becomes an error.  Go's `Call` first checks the
argument types.  A `Prog.fail` of a function without an error output cannot be written in Go;
the model treats it as the error. -/
def safeCall (m : M Str) : M Str := fun s =>
  match m s with
  | (.panic p, s') => (.err p.toErr, s')
  | r => r

/-- `evalCall` (func_exec.go:16-70).  `evalArgs` runs outside `safeCall`. -/
def evalCall (L : GoLib) (rec : Rec) (fuel : Nat) (ctx : Ctx) (f : FuncInfo)
    (args : List CallArg) : M Str :=
  if !f.arityOk args.length then .err (.wrongArgCount f.name)
  else
    let ts := f.paramTypes args.length
    match evalArgs ts args with
    | .err _ => .err (.argType f.name)
    | .panic p => .panic p
    | .oof => fun s => (.oof, s)
    | .ok vs =>
      .wrapErr f.name (safeCall
        (if callAssignable ts vs then
          M.bind (callBody L rec fuel ctx f.body vs) fun s => .pure (outString f.outs s)
        else .panic .reflectCall))

/-- `evalFunction` (func_exec.go:8-14) -/
def evalFunction (L : GoLib) (rec : Rec) (fuel : Nat) (ctx : Ctx) (name : Str)
    (args : List CallArg) : M Str :=
  match ctx.fn name with
  | none => .err (.undefinedFunc name)
  | some f => evalCall L rec fuel ctx f args

/-! ## building a clause and a fragment -/

/-- One case of the `switch` of `buildClause` (build.go:75-101) -/
def evalExpr (L : GoLib) (rec : Rec) (fuel : Nat) (ctx : Ctx) : Expr → M Str
  | .plain t => .pure t
  | .bindVar _ i => do
    let fr ← mustFragment ctx
    match position i fr.args.length with
    | none => .err (.bindVarIndex i)
    | some _ => argBuild fr i
  | .call name args => evalFunction L rec fuel ctx name args
  | .func name => .err (.forgotCall name)

/-- `buildClause` (build.go:72-104) -/
def buildClause (L : GoLib) (rec : Rec) (fuel : Nat) (ctx : Ctx) : List Expr → M Str
  | [] => .pure []
  | e :: es => M.bind (evalExpr L rec fuel ctx e) fun s =>
      M.bind (buildClause L rec fuel ctx es) fun t => .pure (s ++ t)

/-- Prefix and suffix around a trimmed body (build.go:44-55) -/
def decorate (pre suf body : Str) : Str :=
  let body := trimSpace body
  if body = [] then []
  else (if pre ≠ [] then pre ++ lit " " else []) ++ body ++ (if suf ≠ [] then lit " " ++ suf else [])

/-- `build` (build.go:59-69) and the usage check (build.go:37-43), in the fragment's own
context -/
def buildBody (L : GoLib) (rec : Rec) (fuel : Nat) (ctx : Ctx) (f : Fragment) : M Str :=
  match parse L f.raw with
  | .error e => .err (.wrap f.raw (.parse e))
  | .ok es =>
    M.bind (.wrapErr f.raw (buildClause L rec fuel ctx es)) fun body s =>
      match checkUsage { args := f.args, frags := f.frags } s with
      | some e => (.err (.wrap f.raw e), s)
      | none => (.ok (decorate f.pre f.suf body), s)

/-- Running with fresh `used` flags (the properties belong to the new fragment context,
context_fragment.go:43-52) and restoring the caller's afterwards. -/
def withFreshUsage (m : M α) : M α := fun s =>
  let r := m { s with usedA := [], usedF := [] }
  (r.1, { r.2 with usedA := s.usedA, usedF := s.usedF })

/-- `(*Fragment).BuildFragment` (build.go:25-56) for a non-nil fragment and context -/
def buildFragment (L : GoLib) (rec : Rec) (fuel : Nat) (ctx : Ctx) (f : Fragment) : M Str :=
  withFreshUsage (buildBody L rec fuel (ctx.withFragment f) f)

/-! ## sqlb.QueryBuilder -/

/-- The query builder behind a pointer; a dangling reference cannot occur in Go and is treated
as a nil pointer. -/
def getQB (r : Nat) : M QB := fun s =>
  match s.heap[r]? with
  | some b => (.ok b, s)
  | none => (.panic .nilDereference, s)

/-- Assignment to fields of the query builder behind a pointer. -/
def modifyQB (r : Nat) (f : QB → QB) : M Unit := fun s =>
  match s.heap[r]? with
  | some b => (.ok (), { s with heap := s.heap.set r (f b) })
  | none => (.panic .nilDereference, s)

/-- `for … { s, err := …; if err …; list = append(list, …) }`: the loop collecting `Some`
results. -/
def collectM (f : α → M (Option Str)) : List α → M (List Str)
  | [] => .pure []
  | a :: as => M.bind (f a) fun o => M.bind (collectM f as) fun l => .pure (o.toList ++ l)

/-- `buildCTEs` (sqlb/query_builder_build.go:121-146) -/
def buildCTEs (rec : Rec) (ctx : Ctx) (b : QB) (dep : Deps) : M Str :=
  M.bind (collectM (fun (c : Cte) =>
      if (⟨c.name, []⟩ : TableAliased) ∉ dep then .pure none
      else M.bind (.wrapErr c.name (rec ctx (.build c.builder))) fun q =>
        .pure (if q = [] then none else some (c.name ++ lit " AS (" ++ q ++ lit ")"))) b.ctes)
    fun clauses =>
      .pure (if clauses.length = 0 then [] else lit "With " ++ strJoin (lit ", ") clauses)

/-- `buildFrom` (sqlb/query_builder_build.go:171-184).  A nil fragment builds to the empty
string, which is still appended. -/
def buildFrom (L : GoLib) (rec : Rec) (fuel : Nat) (ctx : Ctx) (b : QB) (dep : Deps) : M Str :=
  M.bind (collectM (fun (t : FromTable) =>
      if b.distinct ∧ t.optional ∧ t.names ∉ dep then .pure none
      else M.bind (.wrapErr t.names.name (match t.fragment with
        | some f => buildFragment L rec fuel ctx f
        | none => .pure [])) fun c => .pure (some c)) b.tableList)
    fun tables => .pure (lit "FROM " ++ strJoin (lit " ") tables)

/-- `orders` (sqlb/query_builder_order.go:22-29) -/
def orderNames : List Str :=
  [lit "ASC", lit "ASC NULLS FIRST", lit "ASC NULLS LAST",
   lit "DESC", lit "DESC NULLS FIRST", lit "DESC NULLS LAST"]

/-- The loop of `buildOrders` (sqlb/query_builder_order.go:44-63): fragments appended to the
ORDER BY clause, fragments appended to `touches`, errors pushed.  `i` is the 0-based position
of the first item. -/
def orderItems (distinct : Bool) : Nat → List OrderItem → List Builder × List Builder × List Err
  | _, [] => ([], [], [])
  | i, item :: rest =>
    let r := orderItems distinct (i + 1) rest
    match orderNames[item.order]? with
    | none => (r.1, r.2.1, .builder (lit "invalid order: " ++ natDigits item.order) :: r.2.2)
    | some name =>
      if !distinct then (.frag (.Ff (lit "#f1 " ++ name) [item.column]) :: r.1, r.2)
      else
        let alias := lit "_order_" ++ natDigits (i + 1)
        (.frag (.F (alias ++ lit " " ++ name)) :: r.1,
         .frag (.Ff (lit "#f1 AS " ++ alias) [item.column]) :: r.2.1, r.2.2)

/-- `buildOrders` (sqlb/query_builder_order.go:42-65) -/
def buildOrders (L : GoLib) (rec : Rec) (fuel : Nat) (ctx : Ctx) (r : Nat) : M Str :=
  M.bind (getQB r) fun b =>
  let items := orderItems b.distinct 0 b.orders
  M.bind (modifyQB r fun b =>
    { b with touches := b.touches.appendFragments items.2.1, errors := b.errors ++ items.2.2 })
  fun _ =>
  buildFragment L rec fuel ctx
    (((Fragment.F (joinRaw ", ")).withPrefix (lit "ORDER BY")).appendFragments items.1)

/-- `buildSelects` (sqlb/query_builder_build.go:148-169) -/
def buildSelects (L : GoLib) (rec : Rec) (fuel : Nat) (ctx : Ctx) (r : Nat) : M Str :=
  M.bind (modifyQB r fun b =>
    let prefix_ := if b.distinct then lit "SELECT DISTINCT" else lit "SELECT"
    { b with selects := b.selects.withPrefix prefix_ }) fun _ =>
  M.bind (getQB r) fun b =>
  M.bind (buildFragment L rec fuel ctx b.selects) fun sel =>
  M.bind (getQB r) fun b =>
  M.bind (buildFragment L rec fuel ctx b.touches) fun touches =>
  if sel = [] then .err .noColumns
  else .pure (if touches = [] then sel else sel ++ lit ", " ++ touches)

/-- `buildUnion` (sqlb/query_builder_build.go:186-199) -/
def buildUnion (rec : Rec) (ctx : Ctx) (unions : List Builder) : M Str :=
  M.bind (collectM (fun u => M.bind (rec ctx (.build u)) fun q =>
      .pure (if q = [] then none else some q)) unions)
    fun clauses => .pure (lit "UNION (" ++ strJoin (lit ") UNION (") clauses ++ lit ")")

/-- A clause is appended only if it is not empty
(sqlb/query_builder_build.go:56-58, 67-69, 74-76, 81-83, 88-90). -/
def nonEmpty (s : Str) : List Str := if s = [] then [] else [s]

/-- Debug logging (sqlb/query_builder_build.go:111-117); of a failed interpolation only the
empty second line is kept. -/
def debugLog (L : GoLib) (query : Str) : M Unit := fun s =>
  match interpolate L rfc3339 query s.store.args with
  | .ok t => (.ok (), { s with log := s.log ++ [t] })
  | .err _ => (.ok (), { s with log := s.log ++ [[]] })
  | .panic p => (.panic p, s)
  | .oof => (.oof, s)

/-- `buildInternal` (sqlb/query_builder_build.go:38-119) for a non-nil builder -/
def buildInternal (L : GoLib) (rec : Rec) (fuel : Nat) (ctx : Ctx) (r : Nat) : M Str :=
  M.bind (getQB r) fun b =>
  if b.errors.length ≠ 0 then .err (anyError b.errors)
  else
  M.bind (.ofOut b.collectDependencies) fun dep =>
  M.bind (buildCTEs rec ctx b dep) fun sq =>
  M.bind (getQB r) fun b =>
  M.bind (buildFrom L rec fuel ctx b dep) fun from_ =>
  M.bind (getQB r) fun b =>
  M.bind (buildFragment L rec fuel ctx b.conditions) fun where_ =>
  M.bind (getQB r) fun b =>
  M.bind (buildFragment L rec fuel ctx b.groupbys) fun groupby =>
  M.bind (buildOrders L rec fuel ctx r) fun order =>
  M.bind (getQB r) fun b =>
  let limit := if b.limit > 0 then [lit "LIMIT " ++ itoa b.limit] else []
  let offset := if b.offset > 0 then [lit "OFFSET " ++ itoa b.offset] else []
  M.bind (buildSelects L rec fuel ctx r) fun sel =>
  let clauses := nonEmpty sq ++ [sel] ++ nonEmpty from_ ++ nonEmpty where_ ++ nonEmpty groupby
    ++ nonEmpty order ++ limit ++ offset
  let query := trimSpace (strJoin (lit " ") clauses)
  M.bind (getQB r) fun b =>
  M.bind (if b.unions.length > 0 then
      M.bind (buildUnion rec ctx b.unions) fun union =>
        .pure (trimSpace (query ++ lit " " ++ union))
    else .pure query) fun query =>
  M.bind (getQB r) fun b =>
  M.bind (if b.debug then debugLog L query else .pure ()) fun _ =>
  .pure query

/-! ## tying the knot -/

/-- `b.BuildFragment(ctx)` for every kind of builder: sqlf.Fragment (build.go:25-56),
sqlb.Column (sqlb/table_column.go:22-24), sqlb.Table (sqlb/table.go:15-17), sqlb.TableAliased
(sqlb/table_aliased.go:8-10), sqlb.QueryBuilder (sqlb/query_builder_build.go:28-30, 39-41),
user code. -/
def buildBuilder (L : GoLib) (rec : Rec) (fuel : Nat) (ctx : Ctx) : Builder → M Str
  | .nil => .panic .nilDereference
  | .nilFrag => .pure []
  | .frag f => buildFragment L rec fuel ctx f
  | .nilColumn => .panic .nilDereference
  | .columnNilFrag _ => .pure []
  | .column _ f => buildFragment L rec fuel ctx f
  | .table t => .pure t
  | .aliased n a => .pure (TableAliased.appliedName ⟨n, a⟩)
  | .nilQb => .pure []
  | .qb r => buildInternal L rec fuel ctx r
  | .custom p => runProg L rec ctx p

/-- One level of recursion. -/
def step (L : GoLib) (rec : Rec) (fuel : Nat) : Rec := fun ctx t =>
  match t with
  | .build b => buildBuilder L rec fuel ctx b
  | .clause es => buildClause L rec fuel ctx es
  | .call f args => evalCall L rec fuel ctx f args

/-- The evaluator with fuel. -/
def run (L : GoLib) : Nat → Rec
  | 0 => fun _ _ s => (.oof, s)
  | n + 1 => step L (run L n) n

/-- The state of a new root context with the given style, query builders in memory. -/
def St.init (style : Style) (heap : List QB) : St :=
  { store := .new style, usedA := [], usedF := [], heap := heap, log := [] }

/-- `BuildQuery` of a `*Fragment` (build.go:14-22) and of a `*QueryBuilder`
(sqlb/query_builder_build.go:17-25): query and arguments, and the state after it (the query
builders as the build leaves them, and the log). -/
def buildQueryS (L : GoLib) (fuel : Nat) (b : Builder) (style : Style) (heap : List QB) :
    Out (Str × List Val) × St :=
  match newContext L with
  | none => (.panic (.value [] false), St.init style heap)
  | some ctx =>
    match run L fuel ctx (.build b) (St.init style heap) with
    | (.ok q, s) => (.ok (q, s.store.args), s)
    | (.err e, s) => (.err e, s)
    | (.panic p, s) => (.panic p, s)
    | (.oof, s) => (.oof, s)

/-- The result of `BuildQuery`. -/
def buildQuery (L : GoLib) (fuel : Nat) (b : Builder) (style : Style) (heap : List QB := []) :
    Out (Str × List Val) :=
  (buildQueryS L fuel b style heap).1

end Sqlf
