import Verif.Model.Sqlb
/-!
# Small specifications for query builders

What a sequence of calls means for the parts of a query, and which tables and CTEs a query
needs.
-/

namespace Sqlf.Spec

/-! ## Calls -/

/-- A call of a method of a query builder.  A nil `*Fragment` is `none`.  Columns are
builders here: theorems for all calls are about more calls than Go's types allow; examples and
counterexamples use columns only. -/
inductive Call where
  | distinct
  | select (columns : List Builder)
  | limit (n : Int)
  | offset (n : Int)
  | groupBy (columns : List Builder)
  | orderBy (column : Builder) (order : Nat)
  | union (builders : List Builder)
  | with_ (name : Str) (builder : Builder) (deps : List Str)
  | where_ (f : Option Fragment)
  | where2 (column : Builder) (op : Str) (arg : Val)
  | whereIn (column : Builder) (list : Val)
  | whereNotIn (column : Builder) (list : Val)
  | from_ (t : TableAliased)
  | innerJoin (t : TableAliased) (on : Option Fragment)
  | leftJoin (t : TableAliased) (on : Option Fragment)
  | leftJoinOptional (t : TableAliased) (on : Option Fragment)
  | rightJoin (t : TableAliased) (on : Option Fragment)
  | fullJoin (t : TableAliased) (on : Option Fragment)
  | crossJoin (t : TableAliased)
  | debug

/-- Make a call. -/
def Call.apply (b : QB) : Call → Out QB
  | .distinct => .ok b.setDistinct
  | .select cs => .ok (b.select cs)
  | .limit n => .ok (b.setLimit n)
  | .offset n => .ok (b.setOffset n)
  | .groupBy cs => .ok (b.groupBy cs)
  | .orderBy c o => .ok (b.orderBy c o)
  | .union bs => .ok (b.union bs)
  | .with_ n c ds => .ok (b.with_ n c ds)
  | .where_ f => .ok (b.where_ f)
  | .where2 c op v => .ok (b.where2 c op v)
  | .whereIn c v => b.whereIn c v
  | .whereNotIn c v => b.whereNotIn c v
  | .from_ t => .ok (b.from_ t)
  | .innerJoin t on => b.innerJoin t on
  | .leftJoin t on => b.leftJoin t on
  | .leftJoinOptional t on => b.leftJoinOptional t on
  | .rightJoin t on => b.rightJoin t on
  | .fullJoin t on => b.fullJoin t on
  | .crossJoin t => b.crossJoin t
  | .debug => .ok { b with debug := true }

/-- Make the calls one after the other. -/
def runCalls (b : QB) : List Call → Out QB
  | [] => .ok b
  | c :: cs => match c.apply b with
    | .ok b' => runCalls b' cs
    | o => o

/-! ## What the calls ask for -/

/-- The last positive limit, 0 if there is none. -/
def limitOf : List Call → Int
  | [] => 0
  | .limit n :: cs => if limitOf cs > 0 then limitOf cs else if n > 0 then n else 0
  | _ :: cs => limitOf cs

/-- The last positive offset, 0 if there is none. -/
def offsetOf : List Call → Int
  | [] => 0
  | .offset n :: cs => if offsetOf cs > 0 then offsetOf cs else if n > 0 then n else 0
  | _ :: cs => offsetOf cs

/-- The columns of the last `Select` with columns. -/
def selectedBy : List Call → List Builder
  | [] => []
  | .select columns :: cs => if selectedBy cs = [] then columns else selectedBy cs
  | _ :: cs => selectedBy cs

/-- All columns given to `GroupBy`. -/
def groupedBy : List Call → List Builder
  | [] => []
  | .groupBy columns :: cs => columns ++ groupedBy cs
  | _ :: cs => groupedBy cs

/-- All columns and orders given to `OrderBy`. -/
def orderedBy : List Call → List OrderItem
  | [] => []
  | .orderBy c o :: cs => ⟨c, o⟩ :: orderedBy cs
  | _ :: cs => orderedBy cs

/-- All builders given to `Union`. -/
def unitedWith : List Call → List Builder
  | [] => []
  | .union bs :: cs => bs ++ unitedWith cs
  | _ :: cs => unitedWith cs

/-- All CTEs given to `With`. -/
def declaredBy : List Call → List Cte
  | [] => []
  | .with_ n b ds :: cs => ⟨n, ds, b⟩ :: declaredBy cs
  | _ :: cs => declaredBy cs

/-- The conditions of one call: `Where` adds a fragment as it is, `Where2` compares a column with
an argument, `WhereIn` and `WhereNotIn` with a list of them. -/
def conditionOf : Call → List Fragment
  | .where_ (some f) => [f]
  | .where2 c op v => [.mk (lit "#f1" ++ op ++ lit "$1") [v] [c] [] []]
  | .whereIn c l => match argsFlatted [l] with
    | .ok vs => [.mk (lit "#f1 IN (#join('#arg', ', '))") vs [c] [] []]
    | _ => []
  | .whereNotIn c l => match argsFlatted [l] with
    | .ok vs => [.mk (lit "#f1 NOT IN (#join('#arg', ', '))") vs [c] [] []]
    | _ => []
  | _ => []

/-- All conditions. -/
def conditionsOf (cs : List Call) : List Fragment := cs.flatMap conditionOf

/-- `Distinct` was called. -/
def distinctIn : List Call → Bool
  | [] => false
  | .distinct :: _ => true
  | _ :: cs => distinctIn cs

/-- The table, kind, ON condition and optionality of a join. -/
def joinOf : Call → Option (TableAliased × Str × Option Fragment × Bool)
  | .innerJoin t on => some (t, lit "INNER JOIN", on, false)
  | .leftJoin t on => some (t, lit "LEFT JOIN", on, false)
  | .leftJoinOptional t on => some (t, lit "LEFT JOIN", on, true)
  | .rightJoin t on => some (t, lit "RIGHT JOIN", on, false)
  | .fullJoin t on => some (t, lit "FULL JOIN", on, false)
  | .crossJoin t => some (t, lit "CROSS JOIN", none, false)
  | _ => none

/-- `From` or a join. -/
def isTableCall : Call → Bool
  | .from_ _ => true
  | c => (joinOf c).isSome

/-- Debug mode was asked for. -/
def debugIn : List Call → Bool
  | [] => false
  | .debug :: _ => true
  | _ :: cs => debugIn cs

/-- Calls that panic: a join with a nil ON condition (`CrossJoin` has no other), and
`WhereIn` with a list that cannot be flattened. -/
def CallPanics : Call → Prop
  | .whereIn _ l => ¬ ∃ vs, argsFlatted [l] = .ok vs
  | .whereNotIn _ l => ¬ ∃ vs, argsFlatted [l] = .ok vs
  | c => ∃ t kind opt, joinOf c = some (t, kind, none, opt) ∧ t.name ≠ []

/-- `name` or `name AS alias` -/
def tableText (t : TableAliased) : Str :=
  if t.alias = [] then t.name else t.name ++ lit " AS " ++ t.alias

/-- The row of the FROM clause a `From` asks for. -/
def fromRow (t : TableAliased) : FromTable := ⟨t, some (.F (tableText t)), false⟩

/-- The row of the FROM clause a join asks for: `KIND JOIN table ON condition`. -/
def joinRow (t : TableAliased) (kind : Str) (on : Fragment) (optional : Bool) : FromTable :=
  ⟨t, some (.Ff (kind ++ lit " " ++ tableText t ++ lit " #f1") [.frag (on.withPrefix (lit "ON"))]),
    optional⟩

/-- A call gave the row to the query builder. -/
def gives : Call → Option FromTable
  | .from_ t => if t.name = [] then none else some (fromRow t)
  | c => match joinOf c with
    | some (t, kind, some on, opt) => if t.name = [] then none else some (joinRow t kind on opt)
    | _ => none

/-- The row that a reference to the table `n` means: the one given last under this name. -/
def rowOf (n : Str) : List Call → Option FromTable
  | [] => none
  | c :: cs => match rowOf n cs with
    | some r => some r
    | none => match gives c with
      | some r => if r.names.appliedName = n then some r else none
      | none => none

/-- What a call is reproached with when the query is built: an empty table name. -/
def complaint : Call → Option Str
  | .from_ t => if t.name = [] then some (lit "from table is empty") else none
  | c => match joinOf c with
    | some (t, _) => if t.name = [] then some (lit "join table name is empty") else none
    | none => none

/-- The text of the error that lists the given messages. -/
def report (ms : List Str) : Str := lit "collected errors: \n" ++ (ms.map fun m => lit " - " ++ m ++ lit "\n").flatten

/-- The row a `From` gives. -/
def fromGiven : Call → Option FromTable
  | .from_ t => gives (.from_ t)
  | _ => none

/-- The row a join gives. -/
def joinGiven : Call → Option FromTable
  | .from_ _ => none
  | c => gives c

/-- The main table: the one of the last `From`. -/
def mainOf (cs : List Call) : Option FromTable := (cs.filterMap fromGiven).getLast?

/-- A join replaces the row with the same name, or comes last. -/
def putIn (rows : List FromTable) (r : FromTable) : List FromTable :=
  if rows.any fun x => x.names.appliedName = r.names.appliedName then
    rows.map fun x => if x.names.appliedName = r.names.appliedName then r else x
  else rows ++ [r]

/-- The joined tables. -/
def joinedBy (cs : List Call) : List FromTable := (cs.filterMap joinGiven).foldl putIn []

/-- The rows of the FROM clause: main table (a blank row if it is missing) and joined tables. -/
def tablesBy (cs : List Call) : List FromTable :=
  if cs.filterMap gives = [] then []
  else (mainOf cs).getD ⟨⟨[], []⟩, none, false⟩ :: joinedBy cs

/-- No join uses the name of a table given to `From`. -/
def NoClash (cs : List Call) : Prop :=
  ∀ r ∈ cs.filterMap fromGiven, ∀ r' ∈ cs.filterMap joinGiven,
    r.names.appliedName ≠ r'.names.appliedName

/-- Two sequences of calls that ask for the same in every clause. -/
structure SameRequests (cs cs' : List Call) : Prop where
  ctes : declaredBy cs' = declaredBy cs
  selected : selectedBy cs' = selectedBy cs
  conditions : conditionsOf cs' = conditionsOf cs
  ordered : orderedBy cs' = orderedBy cs
  grouped : groupedBy cs' = groupedBy cs
  distinct : distinctIn cs' = distinctIn cs
  limit : limitOf cs' = limitOf cs
  offset : offsetOf cs' = offsetOf cs
  united : unitedWith cs' = unitedWith cs
  tables : cs'.filter isTableCall = cs.filter isTableCall
  debug : debugIn cs' = debugIn cs

/-! ## Table references -/

mutual
/-- The tables a builder refers to: tables of columns (an expression column refers to what its
fragments refer to), tables, and those of nested fragments. -/
def tableRefs : Builder → List Str
  | .frag (.mk _ _ fs _ _) => tableRefsL fs
  | .column t (.mk _ _ fs _ _) => if t = [] then tableRefsL fs else [t]
  | .columnNilFrag t => if t = [] then [] else [t]
  | .table t => [t]
  | .aliased n a => [TableAliased.appliedName ⟨n, a⟩]
  | _ => []
def tableRefsL : List Builder → List Str
  | [] => []
  | b :: bs => tableRefs b ++ tableRefsL bs
end

mutual
/-- No nil fragment, and no column without table and fragment, in a place where references are
looked for. -/
def noNil : Builder → Bool
  | .nilFrag => false
  | .frag (.mk _ _ fs _ _) => noNilL fs
  | .column t (.mk _ _ fs _ _) => if t = [] then noNilL fs else true
  | .columnNilFrag t => t ≠ []
  | _ => true
def noNilL : List Builder → Bool
  | [] => true
  | b :: bs => noNil b && noNilL bs
end

/-- The row a reference to table `n` resolves to in a query builder. -/
def resolve (b : QB) (n : Str) : Option FromTable := (b.dictGet n).map b.cell

/-- What the selected, filtering, grouping and ordering expressions refer to. -/
def rootRefs (b : QB) : List Str :=
  tableRefsL [.frag b.selects, .frag b.touches, .frag b.conditions, .frag b.groupbys]
    ++ tableRefsL (b.orders.map (·.column))

/-- What a row of the FROM clause refers to (in its ON condition). -/
def rowRefs (r : FromTable) : List Str :=
  match r.fragment with
  | some f => tableRefs (.frag f)
  | none => []

/-- The tables needed by a query: those the expressions refer to, and those the ON conditions of
needed tables refer to. -/
inductive Needed (b : QB) : Str → Prop where
  | root {t : Str} (h : t ∈ rootRefs b) : Needed b t
  | on {t u : Str} {r : FromTable} (ht : Needed b t) (hr : resolve b t = some r)
      (hu : u ∈ rowRefs r) : Needed b u

/-- The expressions of a query: selected, filtering, grouping and ordering. -/
def expressionsOf (cs : List Call) : List Builder :=
  selectedBy cs ++ (conditionsOf cs).map .frag ++ groupedBy cs ++ (orderedBy cs).map (·.column)

/-- The tables needed by the query the calls `cs` ask for: those its expressions refer to, and those
the ON conditions of needed tables refer to. -/
inductive NeededBy (cs : List Call) : Str → Prop where
  | root {t : Str} (h : t ∈ tableRefsL (expressionsOf cs)) : NeededBy cs t
  | on {t u : Str} {r : FromTable} (ht : NeededBy cs t) (hr : rowOf t cs = some r)
      (hu : u ∈ rowRefs r) : NeededBy cs u

/-- `From` is called at most once with a table. -/
def OneFrom (cs : List Call) : Prop := (cs.filterMap fromGiven).length ≤ 1

/-! ## CTEs -/

/-- The CTE declared (last) with the name. -/
def lastCte (ctes : List Cte) (n : Str) : Option Cte := ctes.reverse.find? fun c => c.name = n

/-- The CTEs needed by the tables `rows`: those whose names they use, and those that needed ones
declare as their dependencies. -/
inductive CteNeeded (ctes : List Cte) (rows : List FromTable) : Str → Prop where
  | table {r : FromTable} {c : Cte} (hr : r ∈ rows) (hc : lastCte ctes r.names.name = some c) :
      CteNeeded ctes rows r.names.name
  | dep {n m : Str} {c d : Cte} (hn : CteNeeded ctes rows n) (hc : lastCte ctes n = some c)
      (hm : m ∈ c.deps) (hd : lastCte ctes m = some d) : CteNeeded ctes rows m

/-- The CTE declared (last) with the name. -/
def cteNamed (b : QB) (n : Str) : Option Cte := b.ctes.reverse.find? fun c => c.name = n

/-- The CTEs needed by the tables `rows`: those whose names they use, and those that needed ones
declare as their dependencies. -/
inductive NeededCte (b : QB) (rows : List FromTable) : Str → Prop where
  | table {r : FromTable} {c : Cte} (hr : r ∈ rows) (hc : cteNamed b r.names.name = some c) :
      NeededCte b rows r.names.name
  | dep {n m : Str} {c d : Cte} (hn : NeededCte b rows n) (hc : cteNamed b n = some c)
      (hm : m ∈ c.deps) (hd : cteNamed b m = some d) : NeededCte b rows m

end Sqlf.Spec
