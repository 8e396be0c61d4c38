import Verif.Model.Sqlb
/-!
# Fragments in memory

The other model files treat a `*sqlf.Fragment` as its contents.  Here fragments are objects that
are referred to by pointers, and `Args` and `Fragments` are Go slices, so that sharing can be
seen: fragment.go and shortcut.go again, with slices; the calls of `sqlb.QueryBuilder` again,
with pointers to fragments.  Builds are not part of this file: a build reads the fragments
(build.go, context_fragment.go and sqlb assign to no field of a fragment that was given to
them, except for query_builder_join.go:106, which is a call).
-/

namespace Sqlf

/-! ## slices -/

/-- A Go slice: a window of an array that is referred to by its number. -/
structure Slice where
  arr : Nat
  off : Nat
  len : Nat
  cap : Nat
deriving DecidableEq, Repr

/-- The nil slice -/
def Slice.nil : Slice := ⟨0, 0, 0, 0⟩

/-- The elements of a slice. -/
def Slice.read (A : List (List α)) (s : Slice) : List α := ((A.getD s.arr []).drop s.off).take s.len

/-- A new array with these elements and `spare` more places, and the slice of the elements. -/
def Slice.alloc (z : α) (A : List (List α)) (xs : List α) (spare : Nat) : List (List α) × Slice :=
  (A ++ [xs ++ List.replicate spare z], ⟨A.length, 0, xs.length, xs.length + spare⟩)

/-- The array with `xs` written from position `i` on. -/
def overwrite (a : List α) (i : Nat) (xs : List α) : List α := a.take i ++ xs ++ a.drop (i + xs.length)

/-- Go's `append`: in place if there is room, otherwise into a new array.  How much room a new
array of `n` elements has to spare is up to the Go implementation: `grow n`. -/
def Slice.append (grow : Nat → Nat) (z : α) (A : List (List α)) (s : Slice) (xs : List α) : List (List α) × Slice :=
  if s.len + xs.length ≤ s.cap then
    (A.modify s.arr fun a => overwrite a (s.off + s.len) xs, { s with len := s.len + xs.length })
  else Slice.alloc z A (s.read A ++ xs) (grow (s.len + xs.length))

/-- The variadic arguments of a call: listed (Go makes an array of just this size), or an existing
slice `s...`, which is passed as it is. -/
inductive Given (α : Type) where
  | listed (xs : List α)
  | spread (s : Slice)

/-! ## fragments with pointers -/

/-- A `FragmentBuilder` that may contain pointers to fragments.  `plain` is a builder without
any; `column` is `&Column{fragment: p, table: t}` (sqlb/table_column.go:10-19); `cond` is a fragment
that only the query builder knows, with one builder in it (sqlb/query_builder_where.go:36, 46, 55). -/
inductive PBuilder where
  | plain (b : Builder)
  | ptr (p : Nat)
  | column (table : Str) (p : Nat)
  | cond (raw : Str) (args : List Val) (b : PBuilder)

/-- `Fragment` (fragment.go:5-11) with its slices -/
structure SFragment where
  raw : Str
  args : Slice
  frags : Slice
  pre : Str
  suf : Str

/-- The fragments and the arrays behind their slices -/
structure SMem where
  vals : List (List Val)
  blds : List (List PBuilder)
  objs : List SFragment

/-- The calls that make and change fragments -/
inductive SOp where
  | new (raw : Str) (args : Given Val) (frags : Given PBuilder)
  | withPrefix (p : Nat) (s : Str)
  | withSuffix (p : Nat) (s : Str)
  | withArgs (p : Nat) (g : Given Val)
  | withFragments (p : Nat) (g : Given PBuilder)
  | appendArgs (p : Nat) (g : Given Val)
  | appendFragments (p : Nat) (g : Given PBuilder)

/-- The slice of the variadic arguments -/
def Given.slice (z : α) (A : List (List α)) : Given α → List (List α) × Slice
  | .listed xs => Slice.alloc z A xs 0
  | .spread s => (A, s)

/-- The elements of the variadic arguments -/
def Given.elems (A : List (List α)) : Given α → List α
  | .listed xs => xs
  | .spread s => s.read A

/-- One call: `F`, `Fa`, `Ff` and literals `&Fragment{…}` (shortcut.go:4-24; what `F` leaves nil is
`listed []`), `WithPrefix` … `AppendFragments` (fragment.go:14-47). -/
def SOp.run (grow : Nat → Nat) (m : SMem) : SOp → SMem
  | .new raw as fs =>
    let (vals, a) := as.slice .nil m.vals
    let (blds, f) := fs.slice (.plain .nil) m.blds
    { vals, blds, objs := m.objs ++ [⟨raw, a, f, [], []⟩] }
  | .withPrefix p s => { m with objs := m.objs.modify p fun o => { o with pre := s } }
  | .withSuffix p s => { m with objs := m.objs.modify p fun o => { o with suf := s } }
  | .withArgs p g =>
    let (vals, a) := g.slice .nil m.vals
    { m with vals, objs := m.objs.modify p fun o => { o with args := a } }
  | .withFragments p g =>
    let (blds, f) := g.slice (.plain .nil) m.blds
    { m with blds, objs := m.objs.modify p fun o => { o with frags := f } }
  | .appendArgs p g =>
    match m.objs[p]? with
    | none => m
    | some o =>
      let (vals, a) := o.args.append grow .nil m.vals (g.elems m.vals)
      { m with vals, objs := m.objs.set p { o with args := a } }
  | .appendFragments p g =>
    match m.objs[p]? with
    | none => m
    | some o =>
      let (blds, f) := o.frags.append grow (.plain .nil) m.blds (g.elems m.blds)
      { m with blds, objs := m.objs.set p { o with frags := f } }

/-! ## fragments with pointers, slices as lists -/

/-- `Fragment` (fragment.go:5-11) with lists in place of slices and pointers to other fragments -/
structure PFragment where
  raw : Str
  args : List Val
  frags : List PBuilder
  pre : Str
  suf : Str

/-- The calls that make and change fragments, with listed arguments -/
inductive FOp where
  | new (raw : Str) (args : List Val) (frags : List PBuilder)
  | withPrefix (p : Nat) (s : Str)
  | withSuffix (p : Nat) (s : Str)
  | withArgs (p : Nat) (xs : List Val)
  | withFragments (p : Nat) (xs : List PBuilder)
  | appendArgs (p : Nat) (xs : List Val)
  | appendFragments (p : Nat) (xs : List PBuilder)

/-- One call (shortcut.go:4-24, fragment.go:14-47) -/
def FOp.run (objs : List PFragment) : FOp → List PFragment
  | .new raw as fs => objs ++ [⟨raw, as, fs, [], []⟩]
  | .withPrefix p s => objs.modify p fun o => { o with pre := s }
  | .withSuffix p s => objs.modify p fun o => { o with suf := s }
  | .withArgs p xs => objs.modify p fun o => { o with args := xs }
  | .withFragments p xs => objs.modify p fun o => { o with frags := xs }
  | .appendArgs p xs => objs.modify p fun o => { o with args := o.args ++ xs }
  | .appendFragments p xs => objs.modify p fun o => { o with frags := o.frags ++ xs }

/-! ## query builders with pointers to fragments -/

/-- The fragment of a table: none, of `From` (sqlb/query_builder_join.go:21), or of a join with a
pointer to the ON fragment (104-107) -/
inductive PTable where
  | none
  | from_ (text : Str)
  | join (text : Str) (on : Nat)

/-- `fromTable` (sqlb/query_builder.go:32-36) -/
structure PFromTable where
  names : TableAliased
  fragment : PTable
  optional : Bool

/-- `QueryBuilder` (sqlb/query_builder.go:10-30), as `QB`.  `selects`, `conditions` and `groupbys` are
fragments only the query builder knows; here they are the lists of their fragments.  `touches` is
only changed by builds and left out. -/
structure PQB where
  ctes : List (Str × PBuilder × List Str)
  cells : List PFromTable
  tables : List Nat
  tablesDict : List (Str × Nat)
  selects : List PBuilder
  conditions : List PBuilder
  orders : List (PBuilder × Nat)
  groupbys : List PBuilder
  distinct : Bool
  limit : Int
  offset : Int
  unions : List PBuilder
  errors : List Err
  debug : Bool

/-- `NewQueryBuilder` (sqlb/query_builder.go:39-48) -/
def PQB.new : PQB :=
  { ctes := [], cells := [], tables := [], tablesDict := [], selects := [], conditions := [], orders := [], groupbys := [],
    distinct := false, limit := 0, offset := 0, unions := [], errors := [], debug := false }

/-- The join methods with an ON fragment (sqlb/query_builder_join.go:34-73) -/
inductive JoinKind where
  | inner | left | leftOptional | right | full

/-- The keyword (sqlb/query_builder_join.go:35, 40, 62, 67, 72) -/
def JoinKind.text : JoinKind → Str
  | .inner => lit "INNER JOIN"
  | .left => lit "LEFT JOIN"
  | .leftOptional => lit "LEFT JOIN"
  | .right => lit "RIGHT JOIN"
  | .full => lit "FULL JOIN"

/-- The `optional` argument (sqlb/query_builder_join.go:35, 40, 62, 67, 72) -/
def JoinKind.optional : JoinKind → Bool
  | .leftOptional => true
  | _ => false

/-- A call of a query builder.  `none` is a nil pointer. -/
inductive PCall where
  | distinct
  | select (columns : List PBuilder)
  | limit (n : Int)
  | offset (n : Int)
  | groupBy (columns : List PBuilder)
  | orderBy (column : PBuilder) (order : Nat)
  | union (builders : List PBuilder)
  | with_ (name : Str) (builder : PBuilder) (deps : List Str)
  | where_ (f : Option Nat)
  | where2 (column : PBuilder) (op : Str) (arg : Val)
  | whereIn (column : PBuilder) (list : Val)
  | whereNotIn (column : PBuilder) (list : Val)
  | from_ (t : TableAliased)
  | join (k : JoinKind) (t : TableAliased) (on : Option Nat)
  | crossJoin (t : TableAliased)
  | debug

/-- `pushError` (sqlb/query_builder_errors.go:8-10) -/
def PQB.pushError (b : PQB) (e : Err) : PQB := { b with errors := b.errors ++ [e] }

/-- `From` (sqlb/query_builder_join.go:10-31) -/
def PQB.from_ (b : PQB) (t : TableAliased) : PQB :=
  if t.name = [] then b.pushError (.builder (lit "from table is empty"))
  else
    let ptr := b.cells.length
    { b with
      cells := b.cells ++ [{ names := t, fragment := .from_ (QB.tableAndAlias t), optional := false }]
      tables := if b.tables.length = 0 then b.tables ++ [ptr] else b.tables.set 0 ptr
      tablesDict := (t.appliedName, ptr) :: b.tablesDict }

/-- `join` (sqlb/query_builder_join.go:81-117): the fragments and the query builder afterwards.
`on.WithPrefix("ON")` (106) assigns to the fragment of the caller; for a nil pointer it panics. -/
def PQB.join (objs : List PFragment) (b : PQB) (joinStr : Str) (t : TableAliased) (on : Option Nat) (optional : Bool) :
    Out (List PFragment × PQB) :=
  if t.name = [] then .ok (objs, b.pushError (.builder (lit "join table name is empty")))
  else
    let b := if b.tables.length = 0 then
        { b with cells := b.cells ++ [⟨⟨[], []⟩, .none, false⟩], tables := b.tables ++ [b.cells.length] }
      else b
    match on with
    | none => .panic .nilDereference
    | some p =>
      let objs := objs.modify p fun o => { o with pre := lit "ON" }
      let cell : PFromTable :=
        { names := t, fragment := .join (joinStr ++ lit " " ++ QB.tableAndAlias t ++ lit " #f1") p, optional := optional }
      match (b.tablesDict.find? fun p => p.1 = t.appliedName).map (·.2) with
      | some ptr => .ok (objs, { b with cells := b.cells.set ptr cell })
      | none =>
        let ptr := b.cells.length
        .ok (objs, { b with
          cells := b.cells ++ [cell]
          tables := b.tables ++ [ptr]
          tablesDict := (t.appliedName, ptr) :: b.tablesDict })

/-- `WhereIn` and `WhereNotIn` (sqlb/query_builder_where.go:44-59) -/
def PQB.whereInOp (b : PQB) (op : Str) (column : PBuilder) (list : Val) : Out PQB :=
  match argsFlatted [list] with
  | .ok args => .ok { b with conditions := b.conditions ++ [.cond (lit "#f1 " ++ op ++ lit " (#join('#arg', ', '))") args column] }
  | .err e => .err e
  | .panic p => .panic p
  | .oof => .oof

/-- One call: sqlb/query_builder.go:51-95, query_builder_join.go, query_builder_order.go:37-40,
query_builder_where.go, query_builder_with.go:27-36, and `Debug` -/
def PCall.run (objs : List PFragment) (b : PQB) : PCall → Out (List PFragment × PQB)
  | .distinct => .ok (objs, { b with distinct := true })
  | .select cs => .ok (objs, if cs.length = 0 then b else { b with selects := cs })
  | .limit n => .ok (objs, if n > 0 then { b with limit := n } else b)
  | .offset n => .ok (objs, if n > 0 then { b with offset := n } else b)
  | .groupBy cs => .ok (objs, { b with groupbys := b.groupbys ++ cs })
  | .orderBy c o => .ok (objs, { b with orders := b.orders ++ [(c, o)] })
  | .union bs => .ok (objs, { b with unions := b.unions ++ bs })
  | .with_ n c ds => .ok (objs, { b with ctes := b.ctes ++ [(n, c, ds)] })
  | .where_ none => .ok (objs, b)
  | .where_ (some p) => .ok (objs, { b with conditions := b.conditions ++ [.ptr p] })
  | .where2 c op v => .ok (objs, { b with conditions := b.conditions ++ [.cond (lit "#f1" ++ op ++ lit "$1") [v] c] })
  | .whereIn c v =>
    match b.whereInOp (lit "IN") c v with
    | .ok b => .ok (objs, b)
    | .err e => .err e
    | .panic p => .panic p
    | .oof => .oof
  | .whereNotIn c v =>
    match b.whereInOp (lit "NOT IN") c v with
    | .ok b => .ok (objs, b)
    | .err e => .err e
    | .panic p => .panic p
    | .oof => .oof
  | .from_ t => .ok (objs, b.from_ t)
  | .join k t on => b.join objs k.text t on k.optional
  | .crossJoin t => b.join objs (lit "CROSS JOIN") t none false
  | .debug => .ok (objs, { b with debug := true })

/-- The fragments and query builders of a program -/
structure PMem where
  objs : List PFragment
  qbs : List PQB

/-- A statement of a program: a call that makes or changes a fragment, `NewQueryBuilder`, or a call of
query builder `r` -/
inductive Stmt where
  | frag (o : FOp)
  | newQB
  | call (r : Nat) (c : PCall)

/-- Execute a statement. -/
def Stmt.run (m : PMem) : Stmt → Out PMem
  | .frag o => .ok { m with objs := o.run m.objs }
  | .newQB => .ok { m with qbs := m.qbs ++ [.new] }
  | .call r c =>
    match m.qbs[r]? with
    | none => .panic .nilDereference
    | some b =>
      match c.run m.objs b with
      | .ok (objs, b) => .ok { objs, qbs := m.qbs.set r b }
      | .err e => .err e
      | .panic p => .panic p
      | .oof => .oof

/-- Execute the statements one after the other, until one panics. -/
def runStmts : PMem → List Stmt → Out PMem
  | m, [] => .ok m
  | m, c :: cs =>
    match c.run m with
    | .ok m => runStmts m cs
    | o => o

end Sqlf
