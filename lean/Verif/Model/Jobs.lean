import Verif.Model.Threads
import Verif.Spec.Sqlb
/-!
# Goroutines that make and build queries

Goroutines that call methods of query builders and `BuildQuery`, one after the other.  A query
builder that a goroutine makes itself is in memory from the start, as `NewQueryBuilder` returns it
(sqlb/query_builder.go:39-48).

Simplifications, besides those of Model/Threads.lean: a call reads the field it changes in one step
and assigns to it in another; a map is one field with the slice beside it (`ctes` and `ctesDict`,
`tables` and `tablesDict`).  A goroutine that panics stops, and the others go on (they do if
something recovers the panic, as net/http does).
-/

namespace Sqlf

open Spec

/-- The field that a call changes, `none` if it changes nothing: sqlb/query_builder.go:51-95,
query_builder_order.go:37-40, query_builder_with.go:27-36, query_builder_where.go:15-59,
query_builder_join.go:10-117, query_builder_build.go:33-35. -/
def callField : Call → Option Field
  | .distinct => some .distinct
  | .select cs => if cs.length = 0 then none else some .selects
  | .limit n => if n > 0 then some .limit else none
  | .offset n => if n > 0 then some .offset else none
  | .groupBy _ => some .groupbys
  | .orderBy _ _ => some .orders
  | .union _ => some .unions
  | .with_ _ _ _ => some .ctes
  | .where_ f => if f.isSome then some .conditions else none
  | .where2 _ _ _ => some .conditions
  | .whereIn _ _ => some .conditions
  | .whereNotIn _ _ => some .conditions
  | .from_ t => if t.name = [] then some .errors else some .tables
  | .innerJoin t _ => if t.name = [] then some .errors else some .tables
  | .leftJoin t _ => if t.name = [] then some .errors else some .tables
  | .leftJoinOptional t _ => if t.name = [] then some .errors else some .tables
  | .rightJoin t _ => if t.name = [] then some .errors else some .tables
  | .fullJoin t _ => if t.name = [] then some .errors else some .tables
  | .crossJoin t => if t.name = [] then some .errors else some .tables
  | .debug => some .debug

/-- `b` with the field as in `b'`. -/
def withField (f : Field) (b' b : QB) : QB :=
  match f with
  | .ctes => { b with ctes := b'.ctes }
  | .tables => { b with cells := b'.cells, tables := b'.tables, tablesDict := b'.tablesDict }
  | .selects => { b with selects := b'.selects.withPrefix b.selects.pre }
  | .selectsPrefix => { b with selects := b.selects.withPrefix b'.selects.pre }
  | .touches => { b with touches := b'.touches }
  | .conditions => { b with conditions := b'.conditions }
  | .orders => { b with orders := b'.orders }
  | .groupbys => { b with groupbys := b'.groupbys }
  | .distinct => { b with distinct := b'.distinct }
  | .limit => { b with limit := b'.limit }
  | .offset => { b with offset := b'.offset }
  | .unions => { b with unions := b'.unions }
  | .errors => { b with errors := b'.errors }
  | .debug => { b with debug := b'.debug }

/-- What a goroutine can do: build, or call a method of the query builder behind `r`. -/
inductive Job where
  | build (b : Builder) (style : Style)
  | call (r : Nat) (c : Call)

/-- What comes of it: what `BuildQuery` returns or panics with and logs; a call returns, or panics. -/
inductive Shown where
  | built (o : Out (Str × List Val)) (log : List Str)
  | called
  | panicked

/-- A call of a method of the query builder behind `r`: whether it returns. -/
def callThread (r : Nat) (c : Call) : Th Bool :=
  .read r (callField c).toList fun
    | none => .done false
    | some b =>
      match c.apply b with
      | .ok b' =>
        match callField c with
        | some f => .write r f (withField f b') fun _ => .done true
        | none => .done true
      | _ => .done false

/-- A goroutine that does one job after the other. -/
def jobsThread (L : GoLib) (fuel : Nat) : List Job → Th (List Shown)
  | [] => .done []
  | .build b style :: jobs => (buildThread L fuel b style).bind fun r =>
      match r.1 with
      | .panic _ => .done [.built r.1 r.2]
      | _ => (jobsThread L fuel jobs).bind fun rest => .done (.built r.1 r.2 :: rest)
  | .call r c :: jobs => (callThread r c).bind fun ok =>
      if ok then (jobsThread L fuel jobs).bind fun rest => .done (.called :: rest)
      else .done [.panicked]

end Sqlf
