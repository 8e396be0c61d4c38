import Verif.Proofs.BuiltAgain
import Verif.Props.Again
import Verif.KernelRfl
/-!
# C61: exactly what builds leave behind

`BuiltTimes`, `grownBy` (`Verif.Spec.BuiltAgain`).
-/

namespace Sqlf.Props

open Spec

/-- **C61** Exactly what building again gives, Distinct with OrderBy and invalid orders included: after `k` successful
builds of a query builder, whatever is built is what it would be if nothing had been built, but the columns the query
is ordered by had been selected `k` times more (with Distinct), and the invalid orders were errors of the query builder.
(Without user code; the query builders nested in it can be repeated.) -/
theorem C61_after_builds (L : GoLib) (heap heap' : List QB) (depth r k : Nat) (b : QB) (h : QueryAtD L heap depth r)
    (hb : heap[r]? = some b) (hk : BuiltTimes L r heap k heap') (c : Builder) (style : Style) (o : Out (Str × List Val)) :
    Returns L c style heap' o ↔ Returns L c style (heap.set r (grownBy k b)) o := by
  unfold Returns
  simp only [buildQuery_both selectsOnly_rel L _ c style (builtTimes_heap h hb hk).1]

/-- **C61** With an invalid order, the first build succeeds at most: then `BuildQuery` returns an error, a line for
each invalid order. -/
theorem C61_invalid_order_fails_again (L : GoLib) (heap heap' : List QB) (depth r k : Nat) (b : QB)
    (h : QueryAtD L heap depth r) (hb : heap[r]? = some b) (hk : BuiltTimes L r heap (k + 1) heap')
    (hi : ∃ o ∈ b.orders, orderText o.order = none) (style : Style) :
    k = 0 ∧ Returns L (.qb r) style heap' (.err (.collected (report
      ((b.orders.filter fun o => orderText o.order = none).map fun o => lit "invalid order: " ++ natDigits o.order)))) := by
  have hlt := (List.getElem?_eq_some_iff.1 hb).1
  have hne : orderErrors b.orders ≠ [] := by
    obtain ⟨o, ho, ho'⟩ := hi
    intro h0
    unfold orderErrors at h0
    rw [List.map_eq_nil_iff, List.filter_eq_nil_iff] at h0
    exact h0 o ho (by simp [ho'])
  have at' : ∀ {j : Nat} {h' : List QB}, BuiltTimes L r heap j h' →
      ∃ b', h'[r]? = some b' ∧ b'.errors = (grownBy j b).errors := by
    intro j h' hj
    obtain ⟨b', h1, p, rfl⟩ := (builtTimes_heap h hb hj).1.some r _ (List.getElem?_set_self hlt)
    exact ⟨_, h1, rfl⟩
  have before : ∀ {j : Nat} {h' : List QB}, BuiltTimes L r heap (j + 1) h' → (grownBy j b).errors = [] := by
    intro j h' hj
    cases hj with
    | again hj hb' =>
      obtain ⟨b', h1, h2⟩ := at' hj
      rw [← h2]
      refine Classical.byContradiction fun hc => ?_
      obtain ⟨_, s', hb2, rfl⟩ := returnsLeaving_builds hb'
      have := buildsTo_unique hb2 (build_errors h1 hc _)
      cases this
  have h0 := before hk
  have hk0 : k = 0 := by
    cases k with
    | zero => rfl
    | succ k =>
      have h1 := (List.append_eq_nil_iff.1 h0).2
      rw [timesOver_succ] at h1
      exact absurd (List.append_eq_nil_iff.1 h1).2 hne
  subst hk0
  refine ⟨rfl, ?_⟩
  obtain ⟨b', h1, h2⟩ := at' hk
  have h3 : b'.errors = orderErrors b.orders := by
    rw [h2]
    show b.errors ++ timesOver 1 (orderErrors b.orders) = _
    rw [(List.append_eq_nil_iff.1 h0).1, timesOver_succ]
    rfl
  have := returns_errors (L := L) h1 (by rw [h3]; exact hne) style
  rw [anyError_report, h3] at this
  unfold orderErrors at this
  rw [List.map_map] at this
  exact this

/-- Distinct and ordered by `u.age`: after two builds, `u.age` is selected three times. -/
example (L : GoLib) : QueryAtD L [distinctOrdered] 0 0 ∧
    ∃ heap', BuiltTimes L 0 [distinctOrdered] 2 heap' ∧
      Returns L (.qb 0) question [grownBy 2 distinctOrdered] (.ok (lit ("SELECT DISTINCT u.id, u.age AS _order_1, " ++
        "u.age AS _order_1, u.age AS _order_1 FROM users AS u ORDER BY _order_1 ASC"), [])) := by
  refine ⟨⟨_, [.distinct, .select [tableColumn (lit "u") (lit "id")], .from_ ⟨lit "users", lit "u"⟩,
    .orderBy (tableColumn (lit "u") (lit "age")) 0], rfl, made_of_calls (by rfl), noCodeL_check _ (by decide +kernel), ?_⟩, _,
    .again (.again .none (returnsLeaving_of (n := 200) (style := question)
      (o := .ok (lit "SELECT DISTINCT u.id, u.age AS _order_1 FROM users AS u ORDER BY _order_1 ASC", [])) (by kernel_rfl) (by simp)))
      (returnsLeaving_of (n := 200) (style := dollar)
      (o := .ok (lit "SELECT DISTINCT u.id, u.age AS _order_1, u.age AS _order_1 FROM users AS u ORDER BY _order_1 ASC", []))
      (by kernel_rfl) (by simp)),
    returns_of_buildQuery (n := 200) (by kernel_rfl) (by simp)⟩
  have : qbRefsL (partsOf distinctOrdered) = [] := by decide +kernel
  rw [this]
  exact fun r h => nomatch h

/-- Ordered by `u.age` with an order that does not exist: it is built once. -/
example (L : GoLib) : QueryAtD L [invalidOrdered] 0 0 ∧
    (∃ heap', BuiltTimes L 0 [invalidOrdered] 1 heap') ∧ ∃ o ∈ invalidOrdered.orders, orderText o.order = none := by
  refine ⟨⟨_, [.select [tableColumn (lit "u") (lit "id")], .from_ ⟨lit "users", lit "u"⟩,
    .orderBy (tableColumn (lit "u") (lit "age")) 6], rfl, made_of_calls (by rfl), noCodeL_check _ (by decide +kernel), ?_⟩,
    ⟨_, .again .none (returnsLeaving_of (n := 200) (style := question)
      (o := .ok (lit "SELECT u.id FROM users AS u", [])) (by kernel_rfl) (by simp))⟩, by decide +kernel⟩
  have : qbRefsL (partsOf invalidOrdered) = [] := by decide +kernel
  rw [this]
  exact fun r h => nomatch h

end Sqlf.Props
