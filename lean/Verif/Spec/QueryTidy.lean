import Verif.Spec.Tidy
import Verif.Spec.QueryDoc
/-!
# Query builders in which no `#join` commits values it then drops

Compare `Verif.Spec.Tidy`.  `child` is the meaning of the builders in a query builder.
-/

namespace Sqlf.Spec

mutual
/-- Fragments with tidy `#join` templates, in which no nested builder fails with `ErrInvalidIndex`. -/
def TidyQ (L : GoLib) (parse : Str → Option (List Expr)) (child : Builder → Sem) : Builder → Prop
  | .frag f => TidyQF L parse child f
  | .column _ f => TidyQF L parse child f
  | .custom _ => False
  | _ => True
def TidyQF (L : GoLib) (parse : Str → Option (List Expr)) (child : Builder → Sem) : Fragment → Prop
  | .mk raw args frags _ _ =>
    (∀ es, parse raw = some es → tidyClause L parse args.length frags.length es = true) ∧ TidyQL L parse child frags
def TidyQL (L : GoLib) (parse : Str → Option (List Expr)) (child : Builder → Sem) : List Builder → Prop
  | [] => True
  | b :: bs => TidyQ L parse child b ∧ (∀ log, (child b log).1 ≠ .invalidIndex) ∧ TidyQL L parse child bs
end

/-- Building commits no values. -/
def CommitsNothing (f : Sem) : Prop := ∀ log, (f log).2 = log

/-- What is selected commits no values, or FROM, WHERE, GROUP BY and ORDER BY commit none. -/
def ArgsInOrder (child : Builder → Sem) (b : QB) : Prop :=
  (∀ c ∈ b.selects.frags ++ b.touches.frags ++ orderColumns b.distinct 1 b.orders, CommitsNothing (child c)) ∨
  (∀ c ∈ b.tableList.map rowBuilder ++ b.conditions.frags ++ b.groupbys.frags ++ orderBuilders b.distinct 1 b.orders,
    CommitsNothing (child c))

/-- `p` is what the clauses of the query are built to, one after the other: CTEs, FROM, WHERE, GROUP BY, ORDER BY, SELECT,
UNION.  `as` are the values committed in the end. -/
def BuiltParts (child : Builder → Sem) (q : Request) (p : DocParts) (as : List Val) : Prop :=
  ∃ l1 l2 l3 l4 l5 l6 l7,
    inTurn (q.ctes.map fun c => child c.builder) [] = (.ok (p.ctes.map (·.2)), l1) ∧
    inTurn (q.rows.map fun r => child (rowBuilder r)) l1 = (.ok p.tables, l2) ∧
    inList (q.where_.map child) l2 = (.ok p.where_, l3) ∧
    inList (q.groupBy.map child) l3 = (.ok p.groupBy, l4) ∧
    inList (q.orderBy.map child) l4 = (.ok p.orderBy, l5) ∧
    inList (q.select.map child) l5 = (.ok p.select, l6) ∧
    inList (q.touches.map child) l6 = (.ok p.touches, l7) ∧
    inTurn (q.unions.map child) l7 = (.ok (p.unions.getD []), as)

/-- The marks of the clauses in this order. -/
def DocParts.marks (p : DocParts) : List Nat :=
  (p.ctes.map (·.2) ++ p.tables ++ p.where_ ++ p.groupBy ++ p.orderBy ++ p.select ++ p.touches ++ p.unions.getD []).flatMap binds

/-- The query builder at `r` and those nested in it, less than `depth` levels deep, satisfy `P`. -/
def Throughout (L : GoLib) (style : Style) (P : (Builder → Sem) → QB → Prop) (heap : List QB) : Nat → Nat → Prop
  | 0, _ => False
  | depth + 1, r => ∃ b, heap[r]? = some b ∧
    P (semQ L (fun s => (parse L s).toOption) (cannotCommit style)
      (heapSem L (fun s => (parse L s).toOption) (cannotCommit style) heap depth)) b ∧
    ∀ r' ∈ qbRefsL (partsOf b), Throughout L style P heap depth r'

/-- All parts of the query builder are tidy. -/
def TidyQB (L : GoLib) (child : Builder → Sem) (b : QB) : Prop :=
  TidyQL L (fun s => (parse L s).toOption) child (partsOf b)

/-- The builder is tidy, and the query builders in it, at most `depth` levels deep, satisfy `P`. -/
def TidyWith (L : GoLib) (style : Style) (P : (Builder → Sem) → QB → Prop) (heap : List QB) (depth : Nat) (b : Builder) : Prop :=
  TidyQ L (fun s => (parse L s).toOption) (semQ L (fun s => (parse L s).toOption) (cannotCommit style)
      (heapSem L (fun s => (parse L s).toOption) (cannotCommit style) heap depth)) b ∧
    ∀ r ∈ qbRefs b, Throughout L style P heap depth r

end Sqlf.Spec
