import Verif.Spec.Again
/-!
# What a query builder means

The meaning of builders with query builders in them, as a document (`Verif.Spec.Denote`): text with
marks for the arguments.  No fuel, no argument store, no placeholders, no error texts, no memory that
changes.
-/

namespace Sqlf.Spec

/-- A meaning with a result of any type. -/
abbrev SemOf (α : Type) := List Val → Res α × List Val

def SemOf.pure (a : α) : SemOf α := fun log => (.ok a, log)

def SemOf.fail (r : Res α) : SemOf α := fun log => (r, log)

def SemOf.bind (m : SemOf α) (f : α → SemOf β) : SemOf β := fun log =>
  match m log with
  | (.ok a, log') => f a log'
  | (.invalidIndex, log') => (.invalidIndex, log')
  | (.error, log') => (.error, log')
  | (.panic, log') => (.panic, log')

/-- One after the other, up to the first failure. -/
def inTurn : List Sem → SemOf (List Doc)
  | [] => .pure []
  | f :: fs => SemOf.bind f fun d => (inTurn fs).bind fun ds => .pure (d :: ds)

/-- The items of a list clause (WHERE, SELECT, …), one after the other.  An invalid index in the last one
drops it (see C31); all other failures are errors. -/
def inList : List Sem → SemOf (List Doc)
  | [] => .pure []
  | f :: fs => fun log =>
    match f log with
    | (.ok d, log') => ((inList fs).bind fun ds => .pure (d :: ds)) log'
    | (.invalidIndex, log') => (if fs = [] then .ok [] else .error, log')
    | (.error, log') => (.error, log')
    | (.panic, log') => (.error, log')

/-! ## The document of a query -/

/-- Documents with a separator between them. -/
def joinDocs (sep : Str) : List Doc → Doc
  | [] => []
  | [d] => d
  | d :: e :: ds => d ++ Doc.ofStr sep ++ joinDocs sep (e :: ds)

/-- Non-empty documents with a separator between them. -/
def listedDoc (sep : Str) (ds : List Doc) : Doc := trimDoc (joinDocs sep (ds.filter (· ≠ [])))

/-- A clause: its keyword and its text; nothing if the text is empty. -/
def clauseDocs (keyword : Str) (d : Doc) : List Doc :=
  if d = [] then [] else [Doc.ofStr keyword ++ Doc.ofStr (lit " ") ++ d]

/-- The parts of a query, before they are put together (compare `Parts`). -/
structure DocParts where
  ctes : List (Str × Doc)
  distinct : Bool
  select : List Doc
  touches : List Doc
  tables : List Doc
  where_ : List Doc
  groupBy : List Doc
  orderBy : List Doc
  limit : Int
  offset : Int
  unions : Option (List Doc)

/-- `name AS (query)` -/
def cteDoc (c : Str × Doc) : Doc := Doc.ofStr c.1 ++ Doc.ofStr (lit " AS (") ++ c.2 ++ Doc.ofStr (lit ")")

/-- `SELECT …` -/
def DocParts.selectDoc (p : DocParts) : Doc :=
  Doc.ofStr (if p.distinct then lit "SELECT DISTINCT" else lit "SELECT") ++ Doc.ofStr (lit " ")
    ++ listedDoc (lit ", ") p.select
    ++ if listedDoc (lit ", ") p.touches = [] then [] else Doc.ofStr (lit ", ") ++ listedDoc (lit ", ") p.touches

/-- The clauses of the query without unions, in order. -/
def DocParts.clauses (p : DocParts) : List Doc :=
  clauseDocs (lit "With") (joinDocs (lit ", ") ((p.ctes.filter (·.2 ≠ [])).map cteDoc))
  ++ [p.selectDoc]
  ++ [Doc.ofStr (lit "FROM ") ++ joinDocs (lit " ") p.tables]
  ++ clauseDocs (lit "WHERE") (listedDoc (lit " AND ") p.where_)
  ++ clauseDocs (lit "GROUP BY") (listedDoc (lit ", ") p.groupBy)
  ++ clauseDocs (lit "ORDER BY") (listedDoc (lit ", ") p.orderBy)
  ++ (if p.limit > 0 then [Doc.ofStr (lit "LIMIT ") ++ Doc.ofStr (itoa p.limit)] else [])
  ++ (if p.offset > 0 then [Doc.ofStr (lit "OFFSET ") ++ Doc.ofStr (itoa p.offset)] else [])

/-- `UNION (…) UNION (…)` -/
def unionDoc (us : List Doc) : Doc :=
  Doc.ofStr (lit "UNION (") ++ joinDocs (lit ") UNION (") (us.filter (· ≠ [])) ++ Doc.ofStr (lit ")")

/-- The document of the query. -/
def DocParts.doc (p : DocParts) : Doc :=
  let query := trimDoc (joinDocs (lit " ") p.clauses)
  match p.unions with
  | none => query
  | some us => trimDoc (query ++ Doc.ofStr (lit " ") ++ unionDoc us)

/-! ## The meaning of a query -/

/-- What is to be built for a query. -/
structure Request where
  ctes : List Cte
  rows : List FromTable
  where_ : List Builder
  groupBy : List Builder
  orderBy : List Builder
  select : List Builder
  touches : List Builder
  distinct : Bool
  limit : Int
  offset : Int
  unions : List Builder

/-- The meaning of a query whose builders mean `child`: the builders in the order in which their arguments
are committed, and the document they make.  A query without columns is an error. -/
def Request.sem (child : Builder → Sem) (q : Request) : Sem :=
  (inTurn (q.ctes.map fun c => child c.builder)).bind fun qs =>
  (inTurn (q.rows.map fun r => child (rowBuilder r))).bind fun ts =>
  (inList (q.where_.map child)).bind fun ws =>
  (inList (q.groupBy.map child)).bind fun gs =>
  (inList (q.orderBy.map child)).bind fun os =>
  (inList (q.select.map child)).bind fun ss =>
  (inList (q.touches.map child)).bind fun xs =>
  if listedDoc (lit ", ") ss = [] then .fail .error
  else
  (inTurn (q.unions.map child)).bind fun us =>
  .pure (DocParts.doc
    { ctes := (q.ctes.map (·.name)).zip qs, distinct := q.distinct, select := ss, touches := xs, tables := ts,
      where_ := ws, groupBy := gs, orderBy := os, limit := q.limit, offset := q.offset,
      unions := if q.unions = [] then none else some us })

/-- What a query builder asks for, `deps` being the tables and CTEs it needs: with Distinct, optional joins
that are not needed are left out; CTEs that are not needed are always left out. -/
def requestOf (b : QB) (deps : List TableAliased) : Request where
  ctes := b.ctes.filter fun c => decide ((⟨c.name, []⟩ : TableAliased) ∈ deps)
  rows := b.tableList.filter fun r => decide (¬ (b.distinct ∧ r.optional ∧ r.names ∉ deps))
  where_ := b.conditions.frags
  groupBy := b.groupbys.frags
  orderBy := orderBuilders b.distinct 1 b.orders
  select := b.selects.frags
  touches := b.touches.frags ++ orderColumns b.distinct 1 b.orders
  distinct := b.distinct
  limit := b.limit
  offset := b.offset
  unions := b.unions

mutual
/-- The meaning of a builder, `env` being the meanings of query builders (compare `sem`). -/
def semQ (L : GoLib) (parse : Str → Option (List Expr)) (bad : Val → Bool) (env : Nat → Sem) : Builder → Sem
  | .frag f => semQF L parse bad env f
  | .column _ f => semQF L parse bad env f
  | .table t => fun log => (.ok (Doc.ofStr t), log)
  | .aliased name alias => fun log => (.ok (Doc.ofStr (if alias = [] then name else alias)), log)
  | .nilFrag => fun log => (.ok [], log)
  | .columnNilFrag _ => fun log => (.ok [], log)
  | .nilQb => fun log => (.ok [], log)
  | .qb r => env r
  | _ => fun log => (.panic, log)
def semQF (L : GoLib) (parse : Str → Option (List Expr)) (bad : Val → Bool) (env : Nat → Sem) : Fragment → Sem
  | .mk raw args frags pre suf => fragmentSem L parse bad raw args (semQL L parse bad env frags) pre suf
def semQL (L : GoLib) (parse : Str → Option (List Expr)) (bad : Val → Bool) (env : Nat → Sem) :
    List Builder → List Sem
  | [] => []
  | b :: bs => semQ L parse bad env b :: semQL L parse bad env bs
end

/-- The meaning of a query builder. -/
def qbSem (child : Builder → Sem) (b : QB) : Sem :=
  if b.errors ≠ [] then SemOf.fail .error
  else match b.collectDependencies with
    | .ok deps => (requestOf b deps).sem child
    | .panic _ => SemOf.fail .panic
    | _ => SemOf.fail .error

/-- The meaning of the query builder at `r`, with query builders nested less than `depth` levels deep. -/
def heapSem (L : GoLib) (parse : Str → Option (List Expr)) (bad : Val → Bool) (heap : List QB) :
    Nat → Nat → Sem
  | 0, _ => SemOf.fail .error
  | depth + 1, r => match heap[r]? with
    | none => SemOf.fail .panic
    | some b => qbSem (semQ L parse bad (heapSem L parse bad heap depth)) b

mutual
/-- There is no user code in the builder. -/
def NoCode : Builder → Prop
  | .frag f => NoCodeF f
  | .column _ f => NoCodeF f
  | .custom _ => False
  | _ => True
def NoCodeF : Fragment → Prop
  | .mk _ _ frags _ _ => NoCodeL frags
def NoCodeL : List Builder → Prop
  | [] => True
  | b :: bs => NoCode b ∧ NoCodeL bs
end

mutual
/-- The query builders a builder refers to. -/
def qbRefs : Builder → List Nat
  | .frag f => qbRefsF f
  | .column _ f => qbRefsF f
  | .qb r => [r]
  | _ => []
def qbRefsF : Fragment → List Nat
  | .mk _ _ frags _ _ => qbRefsL frags
def qbRefsL : List Builder → List Nat
  | [] => []
  | b :: bs => qbRefs b ++ qbRefsL bs
end

/-- All builders of a query builder. -/
def partsOf (b : QB) : List Builder :=
  b.ctes.map (·.builder) ++ b.tableList.map rowBuilder ++ b.conditions.frags ++ b.groupbys.frags
    ++ b.orders.map (·.column) ++ b.selects.frags ++ b.touches.frags ++ b.unions

/-- The query builder at `r` exists, and query builders are nested less than `depth` levels deep in it.  Those
in it, and `r` itself, satisfy `P`. -/
def NestedIn (P : QB → Prop) (heap : List QB) : Nat → Nat → Prop
  | 0, _ => False
  | depth + 1, r => ∃ b, heap[r]? = some b ∧ P b ∧ ∀ r' ∈ qbRefsL (partsOf b), NestedIn P heap depth r'

/-- A query builder that can be used in other query builders: it was made by calls (and builds) that can be
repeated, without debug output, from builders without user code. -/
def Nestable (L : GoLib) (b : QB) : Prop :=
  ∃ cs, Made L cs b ∧ Repeatable cs ∧ debugIn cs = false ∧ NoCodeL (partsOf b)

/-- The query builder at `r` was made by calls (and builds), without debug output, from builders without user
code.  Those nested in it, at most `depth` levels deep, can be repeated. -/
def QueryAt (L : GoLib) (heap : List QB) (depth r : Nat) : Prop :=
  ∃ b cs, heap[r]? = some b ∧ Made L cs b ∧ debugIn cs = false ∧ NoCodeL (partsOf b) ∧
    ∀ r' ∈ qbRefsL (partsOf b), NestedIn (Nestable L) heap depth r'

/-- The meaning of the query builder at `r` in a new context: outcome and committed values. -/
def queryMeaning (L : GoLib) (style : Style) (heap : List QB) (depth r : Nat) : Res Doc × List Val :=
  heapSem L (fun s => (parse L s).toOption) (cannotCommit style) heap (depth + 1) r []

/-- The meaning of a builder with query builders in it, at most `depth` levels deep, in a new context. -/
def builderMeaning (L : GoLib) (style : Style) (heap : List QB) (depth : Nat) (b : Builder) : Res Doc × List Val :=
  semQ L (fun s => (parse L s).toOption) (cannotCommit style)
    (heapSem L (fun s => (parse L s).toOption) (cannotCommit style) heap depth) b []

end Sqlf.Spec
