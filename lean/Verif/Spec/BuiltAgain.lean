import Verif.Spec.Again
/-!
# What builds leave behind
-/

namespace Sqlf.Spec

/-- `BuildQuery` of the query builder at `r` succeeded `k` times in a row, in any styles, which turned `heap` into
`heap'`. -/
inductive BuiltTimes (L : GoLib) (r : Nat) (heap : List QB) : Nat → List QB → Prop where
  | none : BuiltTimes L r heap 0 heap
  | again {k : Nat} {heap1 heap2 : List QB} {style : Style} {q : Str × List Val} (h : BuiltTimes L r heap k heap1)
      (hb : ReturnsLeaving L (.qb r) style heap1 (.ok q) heap2) : BuiltTimes L r heap (k + 1) heap2

/-- An error for each invalid order. -/
def orderErrors (orders : List OrderItem) : List Err :=
  (orders.filter fun o => orderText o.order = none).map fun o => .builder (lit "invalid order: " ++ natDigits o.order)

/-- `k` times over. -/
def timesOver {α : Type} (k : Nat) (l : List α) : List α := (List.replicate k l).flatten

/-- The query builder with the columns it is ordered by selected `k` times more (with Distinct), and with the errors of
its invalid orders. -/
def grownBy (k : Nat) (b : QB) : QB :=
  { b with
    touches := b.touches.appendFragments (timesOver k (orderColumns b.distinct 1 b.orders))
    errors := b.errors ++ timesOver k (orderErrors b.orders) }

end Sqlf.Spec
