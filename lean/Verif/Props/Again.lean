import Verif.Proofs.Between
import Verif.Props.Query
import Verif.KernelRfl
/-!
# C61: building again

`AfterBuilds L heap heap'` (`Verif.Spec.Again`): any number of builds turned `heap` into `heap'`.
-/

namespace Sqlf.Props

open Spec

/-- **C61** (partial: builders with Distinct and OrderBy, or with an invalid order, are excluded, see the
counterexamples)  Whatever was built before, successfully or not, with whatever contexts and user code:
`BuildQuery` returns what it would have returned at first. -/
theorem C61_builds_repeat_partial (L : GoLib) (heap heap' : List QB)
    (hh : ∀ b ∈ heap, ∃ cs, Made L cs b ∧ Repeatable cs) (h : AfterBuilds L heap heap')
    (c : Builder) (style : Style) (o : Out (Str × List Val)) :
    Returns L c style heap' o ↔ Returns L c style heap o := by
  have hr := h.heapRel fun b hb => by
    obtain ⟨cs, h1, h2, h3⟩ := hh b hb
    have hf := h1.fields
    unfold SteadyQB
    rw [hf.orders, hf.distinct]
    exact ⟨h2, h3⟩
  unfold Returns
  simp only [buildQuery_both selectsOnly_rel L _ c style hr]

/-- The query with all clauses: it can be built again after any number of builds. -/
example (L : GoLib) : (∀ b ∈ [fullQB], ∃ cs, Made L cs b ∧ Repeatable cs) ∧
    ∃ s', BuildsTo L rootCtx (.qb 0) (St.init question [fullQB]) (.ok (lit ("With c AS (SELECT 1) " ++
      "SELECT u.id, u.name FROM users AS u LEFT JOIN c ON c.id = ? WHERE u.age > ? AND u.group IN (?, ?) " ++
      "GROUP BY u.id ORDER BY u.id DESC LIMIT 10 OFFSET 20 UNION (SELECT 2)")), s') ∧
      AfterBuilds L [fullQB] s'.heap := by
  refine ⟨?_, ?_⟩
  · intro b hb
    cases List.mem_singleton.1 hb
    exact ⟨fullCalls, fullQB_made L, by decide +kernel, by decide +kernel⟩
  · have h := buildsTo_of_run (L := L) (n := 200) (ctx := rootCtx) (b := .qb 0) (s := St.init question [fullQB])
      (r := (.ok (lit ("With c AS (SELECT 1) " ++
      "SELECT u.id, u.name FROM users AS u LEFT JOIN c ON c.id = ? WHERE u.age > ? AND u.group IN (?, ?) " ++
      "GROUP BY u.id ORDER BY u.id DESC LIMIT 10 OFFSET 20 UNION (SELECT 2)")),
      (run L 200 rootCtx (.build (.qb 0)) (St.init question [fullQB])).2)) (by kernel_rfl) (by simp)
    exact ⟨_, h, .build (s := St.init question [fullQB]) .none h⟩

/-- **C61** (partial: as above)  Builds between the calls that make the query builders do not matter: each builder
of `heap` was made by calls with any number of builds, of anything, in between; the one at the same place of
`heap0` by the same calls alone.  `BuildQuery` returns the same for both. -/
theorem C61_builds_between_calls_partial (L : GoLib) (heap heap0 : List QB) (hl : heap.length = heap0.length)
    (hh : ∀ (r : Nat) (b b0 : QB), heap[r]? = some b → heap0[r]? = some b0 →
      ∃ cs, Repeatable cs ∧ Made L cs b ∧ runCalls QB.new cs = .ok b0)
    (c : Builder) (style : Style) (o : Out (Str × List Val)) :
    Returns L c style heap o ↔ Returns L c style heap0 o := by
  have hr : HeapRel SelectsOnly heap0 heap := by
    refine ⟨fun r h => ?_, fun r b0 h => ?_⟩
    · rw [List.getElem?_eq_none_iff] at h ⊢
      omega
    · have hb : r < heap.length := by
        have := (List.getElem?_eq_some_iff.1 h).1
        omega
      have hb := List.getElem?_eq_getElem hb
      obtain ⟨cs, h1, h2, h3⟩ := hh r _ b0 hb h
      obtain ⟨b1, h4, h5⟩ := h2.selectsOnly h1
      rw [h3] at h4
      cases h4
      exact ⟨_, hb, h5⟩
  unfold Returns
  simp only [buildQuery_both selectsOnly_rel L _ c style hr]

def firstCalls : List Call := [.distinct, .select [tableColumn (lit "u") (lit "id")], .from_ ⟨lit "users", lit "u"⟩,
  .where2 (tableColumn (lit "u") (lit "age")) (lit " > ") (.int 64 18)]

def firstQB : QB := match runCalls QB.new firstCalls with | .ok b => b | _ => QB.new

def lastCall : Call := .where2 (tableColumn (lit "u") (lit "age")) (lit " < ") (.int 64 65)

/-- A query builder made by four calls, built, and given one more: the build was successful and has
changed the builder. -/
example (L : GoLib) : ∃ b b0 s' o, BuildsTo L rootCtx (.qb 0) (St.init question [firstQB]) (.ok o, s') ∧
    s'.heap[0]? = some b0 ∧ b0 ≠ firstQB ∧ lastCall.apply b0 = .ok b ∧
    Made L (firstCalls ++ [lastCall]) b ∧ Repeatable (firstCalls ++ [lastCall]) ∧
    Returns L (.qb 0) question [b] (.ok
      (lit "SELECT DISTINCT u.id FROM users AS u WHERE u.age > ? AND u.age < ?", [.int 64 18, .int 64 65])) := by
  have h := buildsTo_of_run (L := L) (n := 200) (ctx := rootCtx) (b := .qb 0) (s := St.init question [firstQB])
      (r := (.ok (lit "SELECT DISTINCT u.id FROM users AS u WHERE u.age > ?"),
      (run L 200 rootCtx (.build (.qb 0)) (St.init question [firstQB])).2)) (by kernel_rfl) (by simp)
  have h0 : (run L 200 rootCtx (.build (.qb 0)) (St.init question [firstQB])).2.heap[0]? =
      some { firstQB with selects := firstQB.selects.withPrefix (lit "SELECT DISTINCT") } := by kernel_rfl
  refine ⟨_, _, _, _, h, h0, ?_, rfl, .call (.build (made_of_calls (by rfl)) rfl h h0) rfl,
    ⟨by decide +kernel, by decide +kernel⟩, returns_of_buildQuery (n := 200) (by kernel_rfl) (by simp)⟩
  intro e
  have : lit "SELECT DISTINCT" = lit "SELECT" := congrArg (fun b : QB => match b.selects with | .mk _ _ _ p _ => p) e
  revert this
  decide +kernel

def distinctOrdered : QB := match runCalls QB.new [.distinct, .select [tableColumn (lit "u") (lit "id")],
    .from_ ⟨lit "users", lit "u"⟩, .orderBy (tableColumn (lit "u") (lit "age")) 0] with | .ok b => b | _ => QB.new

/-- With Distinct and OrderBy every build selects the ordering expressions once more. -/
theorem C61_distinct_order_counterexample (L : GoLib) :
    ∃ cs b heap', runCalls QB.new cs = .ok b ∧
      ReturnsLeaving L (.qb 0) question [b]
        (.ok (lit "SELECT DISTINCT u.id, u.age AS _order_1 FROM users AS u ORDER BY _order_1 ASC", [])) heap' ∧
      Returns L (.qb 0) question heap'
        (.ok (lit "SELECT DISTINCT u.id, u.age AS _order_1, u.age AS _order_1 FROM users AS u ORDER BY _order_1 ASC", [])) :=
  ⟨[.distinct, .select [tableColumn (lit "u") (lit "id")], .from_ ⟨lit "users", lit "u"⟩,
    .orderBy (tableColumn (lit "u") (lit "age")) 0], distinctOrdered,
    (buildQueryS L 200 (.qb 0) question [distinctOrdered]).2.heap, rfl,
    returnsLeaving_of (n := 200) (by kernel_rfl) (by simp),
    returns_of_buildQuery (n := 200) (by kernel_rfl) (by simp)⟩

def invalidOrdered : QB := match runCalls QB.new [.select [tableColumn (lit "u") (lit "id")],
    .from_ ⟨lit "users", lit "u"⟩, .orderBy (tableColumn (lit "u") (lit "age")) 6] with | .ok b => b | _ => QB.new

/-- With an invalid order the first build works and the second one fails. -/
theorem C61_invalid_order_counterexample (L : GoLib) :
    ∃ cs b heap', runCalls QB.new cs = .ok b ∧
      ReturnsLeaving L (.qb 0) question [b] (.ok (lit "SELECT u.id FROM users AS u", [])) heap' ∧
      Returns L (.qb 0) question heap' (.err (.collected (lit "collected errors: \n - invalid order: 6\n"))) :=
  ⟨[.select [tableColumn (lit "u") (lit "id")], .from_ ⟨lit "users", lit "u"⟩,
    .orderBy (tableColumn (lit "u") (lit "age")) 6], invalidOrdered,
    (buildQueryS L 200 (.qb 0) question [invalidOrdered]).2.heap, rfl,
    returnsLeaving_of (n := 200) (by kernel_rfl) (by simp),
    returns_of_buildQuery (n := 200) (by kernel_rfl) (by simp)⟩

end Sqlf.Props
