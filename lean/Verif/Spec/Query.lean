import Verif.Spec.Sqlb
import Verif.Spec.Outcome
/-!
# Small specifications for building queries

The clauses of a query, and builders built one after the other.
-/

namespace Sqlf.Spec

/-- The builders are built one after the other, with texts `ts`. -/
inductive BuildsAll (L : GoLib) (ctx : Ctx) : List Builder → St → List Str → St → Prop where
  | nil (s : St) : BuildsAll L ctx [] s [] s
  | cons {b : Builder} {bs : List Builder} {s s1 s2 : St} {t : Str} {ts : List Str}
      (h : BuildsTo L ctx b s (.ok t, s1)) (hs : BuildsAll L ctx bs s1 ts s2) :
      BuildsAll L ctx (b :: bs) s (t :: ts) s2

/-- A failure with `ErrInvalidIndex`. -/
def IndexFailure : Out α → Prop
  | .err e => e.isInvalidIndex = true
  | .panic (.value _ invalidIndex) => invalidIndex = true
  | _ => False

/-- The builders of a clause are built one after the other, with texts `ts`.  The last one may be
missing because it fails with `ErrInvalidIndex` (see C31). -/
inductive BuildsList (L : GoLib) (ctx : Ctx) : List Builder → St → List Str → St → Prop where
  | nil (s : St) : BuildsList L ctx [] s [] s
  | cons {b : Builder} {bs : List Builder} {s s1 s2 : St} {t : Str} {ts : List Str}
      (h : BuildsTo L ctx b s (.ok t, s1)) (hs : BuildsList L ctx bs s1 ts s2) :
      BuildsList L ctx (b :: bs) s (t :: ts) s2
  | lost {b : Builder} {s s1 : St} {o : Out Str} (h : BuildsTo L ctx b s (o, s1))
      (ho : IndexFailure o) : BuildsList L ctx [b] s [] s1

/-- Non-empty texts with a separator between them. -/
def listed (sep : Str) (ts : List Str) : Str := trimSpace (strJoin sep (ts.filter (· ≠ [])))

/-- A clause: its keyword and its text; nothing if the text is empty. -/
def clause (keyword text : Str) : List Str := if text = [] then [] else [keyword ++ lit " " ++ text]

/-- The parts of a query, before they are put together. -/
structure Parts where
  /-- names and queries of CTEs -/
  ctes : List (Str × Str)
  distinct : Bool
  /-- selected columns -/
  select : List Str
  /-- further selected columns, which the ORDER BY clause refers to -/
  touches : List Str
  /-- main table and joins -/
  tables : List Str
  where_ : List Str
  groupBy : List Str
  orderBy : List Str
  limit : Int
  offset : Int
  /-- `none`: no union was asked for -/
  unions : Option (List Str)

/-- `name AS (query)` -/
def cteText (c : Str × Str) : Str := c.1 ++ lit " AS (" ++ c.2 ++ lit ")"

/-- `SELECT …` -/
def Parts.selectText (p : Parts) : Str :=
  (if p.distinct then lit "SELECT DISTINCT" else lit "SELECT") ++ lit " " ++ listed (lit ", ") p.select
    ++ if listed (lit ", ") p.touches = [] then [] else lit ", " ++ listed (lit ", ") p.touches

/-- The clauses of the query without unions, in order. -/
def Parts.clauses (p : Parts) : List Str :=
  clause (lit "With") (strJoin (lit ", ") ((p.ctes.filter (·.2 ≠ [])).map cteText))
  ++ [p.selectText]
  ++ [lit "FROM " ++ strJoin (lit " ") p.tables]
  ++ clause (lit "WHERE") (listed (lit " AND ") p.where_)
  ++ clause (lit "GROUP BY") (listed (lit ", ") p.groupBy)
  ++ clause (lit "ORDER BY") (listed (lit ", ") p.orderBy)
  ++ (if p.limit > 0 then [lit "LIMIT " ++ itoa p.limit] else [])
  ++ (if p.offset > 0 then [lit "OFFSET " ++ itoa p.offset] else [])

/-- `UNION (…) UNION (…)` -/
def unionText (us : List Str) : Str :=
  lit "UNION (" ++ strJoin (lit ") UNION (") (us.filter (· ≠ [])) ++ lit ")"

/-- The text of the query. -/
def Parts.text (p : Parts) : Str :=
  let query := trimSpace (strJoin (lit " ") p.clauses)
  match p.unions with
  | none => query
  | some us => trimSpace (query ++ lit " " ++ unionText us)

/-- The builder of a row of the FROM clause. -/
def rowBuilder (r : FromTable) : Builder :=
  match r.fragment with
  | some f => .frag f
  | none => .nilFrag

/-- The text of an `Order`: `ASC`, `ASC NULLS FIRST`, … -/
def orderText (order : Nat) : Option Str :=
  [lit "ASC", lit "ASC NULLS FIRST", lit "ASC NULLS LAST",
   lit "DESC", lit "DESC NULLS FIRST", lit "DESC NULLS LAST"][order]?

/-- The alias of the `i`-th ordering expression, counted from 1. -/
def orderAlias (i : Nat) : Str := lit "_order_" ++ natDigits i

/-- The ORDER BY items, `i` being the number of the first one: `column ASC` …, with Distinct
`_order_i ASC` ….  Items with an invalid order are left out. -/
def orderBuilders (distinct : Bool) : Nat → List OrderItem → List Builder
  | _, [] => []
  | i, item :: rest =>
    (match orderText item.order with
      | none => []
      | some o => if distinct then [.frag (.F (orderAlias i ++ lit " " ++ o))]
        else [.frag (.Ff (lit "#f1 " ++ o) [item.column])])
    ++ orderBuilders distinct (i + 1) rest

/-- With Distinct the ordering expressions are selected: `column AS _order_i`. -/
def orderColumns (distinct : Bool) : Nat → List OrderItem → List Builder
  | _, [] => []
  | i, item :: rest =>
    (match orderText item.order with
      | none => []
      | some _ => if distinct then [.frag (.Ff (lit "#f1 AS " ++ orderAlias i) [item.column])] else [])
    ++ orderColumns distinct (i + 1) rest

/-- A column that is selected because the query, with Distinct, is ordered by it. -/
def OrderTouch (distinct : Bool) (orders : List OrderItem) (t : Builder) : Prop :=
  distinct = true ∧ ∃ o ∈ orders, ∃ i, t = .frag (.Ff (lit "#f1 AS " ++ orderAlias i) [o.column])

/-- The query asked for by the calls `cs`, with the CTEs `ctes`, the rows `rows` in its FROM clause
and the additional columns `touches`, is built from state `s` to state `s'`.  Between the clauses
only arguments are passed on. -/
inductive QueryBuilt (L : GoLib) (ctx : Ctx) (cs : List Call) (ctes : List Cte) (rows : List FromTable)
    (touches : List Builder) : St → Parts → St → Prop where
  | mk {s s1 s2 s3 s4 s4' s5 s5' s6 s7 s8 s9 : St} {qs ts ws gs os ss xs us : List Str}
      (hctes : BuildsAll L ctx (ctes.map (·.builder)) s qs s1)
      (hfrom : BuildsAll L ctx (rows.map rowBuilder) s1 ts s2)
      (hwhere : BuildsList L ctx ((conditionsOf cs).map .frag) s2 ws s3)
      (hgroup : BuildsList L ctx (groupedBy cs) s3 gs s4) (h4 : s4'.store = s4.store)
      (horder : BuildsList L ctx (orderBuilders (distinctIn cs) 1 (orderedBy cs)) s4' os s5)
      (h5 : s5'.store = s5.store)
      (hselect : BuildsList L ctx (selectedBy cs) s5' ss s6)
      (htouch : BuildsList L ctx touches s6 xs s7)
      (hunion : BuildsAll L ctx (unitedWith cs) s7 us s8) (h8 : s9.store = s8.store) :
      QueryBuilt L ctx cs ctes rows touches s
        { ctes := (ctes.map (·.name)).zip qs, distinct := distinctIn cs, select := ss, touches := xs,
          tables := ts, where_ := ws, groupBy := gs, orderBy := os, limit := limitOf cs,
          offset := offsetOf cs, unions := if unitedWith cs = [] then none else some us } s9

/-- A query builder that was made by the calls `cs`, with any number of builds, of it or of other
builders, before, between and after them. -/
inductive Made (L : GoLib) : List Call → QB → Prop where
  | new : Made L [] .new
  | call {cs : List Call} {c : Call} {b b' : QB} (h : Made L cs b) (hc : c.apply b = .ok b') :
      Made L (cs ++ [c]) b'
  | build {cs : List Call} {b b' : QB} {ctx : Ctx} {c : Builder} {s s' : St} {o : Out Str} {r : Nat}
      (h : Made L cs b) (hr : s.heap[r]? = some b) (hb : BuildsTo L ctx c s (o, s'))
      (hr' : s'.heap[r]? = some b') : Made L cs b'

/-- The query builder `b` has become `b'` by calls and by builds of any builders. -/
inductive Later (L : GoLib) : QB → QB → Prop where
  | refl (b : QB) : Later L b b
  | call {b b' b'' : QB} {c : Call} (h : Later L b b') (hc : c.apply b' = .ok b'') : Later L b b''
  | build {b b' b'' : QB} {ctx : Ctx} {c : Builder} {s s' : St} {o : Out Str} {r : Nat}
      (h : Later L b b') (hr : s.heap[r]? = some b') (hb : BuildsTo L ctx c s (o, s'))
      (hr' : s'.heap[r]? = some b'') : Later L b b''

end Sqlf.Spec
