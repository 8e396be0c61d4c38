import Verif.Proofs.GoEqual
import Verif.Proofs.NoPanic
import Verif.Props.Query
/-!
# `BuildQuery` of a query builder and panics (C64)
-/

namespace Sqlf.Props

open Spec

/-- **C64** `BuildQuery` of a query builder does not panic if all query builders in memory were made
by calls, with any builds in between, that specify a query completely: there is a table, no fragment
in columns and conditions is nil, names of tables contain no `#`, CTEs and members of unions are query builders
or do not panic by themselves, and debug mode is off.
(`_partial`: for incomplete queries `BuildQuery` does panic, see the counterexamples below.) -/
theorem C64_complete_queries_never_panic_partial (L : GoLib) (heap : List QB)
    (hh : ∀ b ∈ heap, ∃ cs, Made L cs b ∧ Complete L heap.length cs) (r : Nat) (hr : r < heap.length)
    (style : Style) (o : Out (Str × List Val)) (h : Returns L (.qb r) style heap o) :
    ∀ p, o ≠ .panic p := by
  rintro p rfl
  obtain ⟨⟨o, s'⟩, ⟨-, N, h1⟩, h2⟩ := returns_iff_buildsTo.1 h
  have hg : GoodHeap L heap.length (St.init style heap) := by
    intro r hr
    obtain ⟨b, hb⟩ : ∃ b, heap[r]? = some b := ⟨_, List.getElem?_eq_getElem hr⟩
    obtain ⟨cs, hm, hc⟩ := hh b (List.mem_of_getElem? hb)
    obtain ⟨b0, h3, h4⟩ := hm.base
    exact ⟨b, hb, cs, b0, h3, h4, hc⟩
  cases o with
  | panic q => exact run_noPan L _ N r hr _ hg q s' (h1 N (Nat.le_refl _))
  | ok t => simp [queryOut] at h2
  | err e => simp [queryOut] at h2
  | oof => simp [queryOut] at h2

/-- Fragments whose templates contain no function calls and whose arguments can be map keys do not
panic. -/
theorem safe_fragment {L : GoLib} {f : Fragment} {es : List Expr} (hp : parse L f.raw = .ok es)
    (hc : ∀ name as, .call name as ∉ es) (ha : ∀ v ∈ f.args, ¬ Unhashable v) {n : Nat} :
    SafePart L n (.frag f) := by
  simp only [not_unhashable_iff] at ha
  refine .inr fun ctx _ s p s' h => ?_
  obtain ⟨m, h⟩ := buildsTo_frag h
  obtain ⟨es', s1, h1, h2⟩ := buildFragment_panic h
  rw [hp] at h1
  cases h1
  obtain ⟨e, he, s2, _, h4⟩ := buildClause_panic h2
  rcases evalExpr_panic (ctx := ctx.withFragment f) (fr := ⟨f.args, f.frags⟩) rfl h4 with
    ⟨_, _, _, v, hv, hh⟩ | ⟨_, name, as, g, rfl, _, _⟩
  · rw [ha v hv] at hh; cases hh
  · exact hc name as he

/-- A query builder that unites with another query. -/
def unitedQB : QB := match runCalls QB.new [.from_ ⟨lit "t", []⟩, .select [tableColumn (lit "t") (lit "x")],
    .union [.qb 0]] with | .ok b => b | _ => QB.new

/-- The query with all clauses, and one that unites with it, are complete; the second is built. -/
example (L : GoLib) : (∀ b ∈ [fullQB, unitedQB], ∃ cs, Made L cs b ∧ Complete L 2 cs) ∧
    Returns L (.qb 1) question [fullQB, unitedQB] (.ok (lit ("SELECT t.x FROM t UNION (With c AS (SELECT 1) " ++
      "SELECT u.id, u.name FROM users AS u LEFT JOIN c ON c.id = ? WHERE u.age > ? AND u.group IN (?, ?) " ++
      "GROUP BY u.id ORDER BY u.id DESC LIMIT 10 OFFSET 20 UNION (SELECT 2))"),
      [.int 64 7, .int 64 18, .int 64 1, .int 64 2])) := by
  refine ⟨?_, returns_of_buildQuery (n := 200) (by kernel_rfl) (by simp)⟩
  intro b hb
  simp only [List.mem_cons, List.not_mem_nil, or_false] at hb
  rcases hb with rfl | rfl
  · refine ⟨_, fullQB_made L, ⟨.from_ ⟨lit "users", lit "u"⟩, by simp [fullCalls], fromRow ⟨lit "users", lit "u"⟩, rfl⟩,
      by decide +kernel, ?_, ?_, ?_, ?_, by decide +kernel⟩
    · intro c hc r hr
      simp only [fullCalls, List.mem_cons, List.not_mem_nil, or_false] at hc
      rcases hc with rfl | rfl | rfl | rfl | rfl | rfl | rfl | rfl | rfl | rfl | rfl <;> cases hr <;> decide +kernel
    · intro c hc r hr
      simp only [fullCalls, List.mem_cons, List.not_mem_nil, or_false] at hc
      rcases hc with rfl | rfl | rfl | rfl | rfl | rfl | rfl | rfl | rfl | rfl | rfl <;> cases hr <;> decide +kernel
    · intro c hc
      simp only [fullCalls, declaredBy, List.mem_cons, List.not_mem_nil, or_false] at hc
      subst hc
      exact safe_fragment (es := [.plain (lit "SELECT 1")]) (by kernel_rfl) (by simp) (by simp [Fragment.F, Fragment.args])
    · intro c hc
      simp only [fullCalls, unitedWith, List.append_nil, List.mem_singleton] at hc
      subst hc
      exact safe_fragment (es := [.plain (lit "SELECT 2")]) (by kernel_rfl) (by simp) (by simp [Fragment.F, Fragment.args])
  · refine ⟨[.from_ ⟨lit "t", []⟩, .select [tableColumn (lit "t") (lit "x")], .union [.qb 0]], made_of_calls (by rfl),
      ⟨.from_ ⟨lit "t", []⟩, by simp, fromRow ⟨lit "t", []⟩, rfl⟩, by decide +kernel, ?_, ?_, ?_, ?_, by decide +kernel⟩
    · intro c hc r hr
      simp only [List.mem_cons, List.not_mem_nil, or_false] at hc
      rcases hc with rfl | rfl | rfl <;> cases hr <;> decide +kernel
    · intro c hc r hr
      simp only [List.mem_cons, List.not_mem_nil, or_false] at hc
      rcases hc with rfl | rfl | rfl <;> cases hr <;> decide +kernel
    · intro c hc
      simp [declaredBy] at hc
    · intro c hc
      simp only [unitedWith, List.append_nil, List.mem_singleton] at hc
      subst hc
      exact .inl ⟨0, by omega, rfl⟩

/-- No `From` and no join: `BuildQuery` panics. -/
theorem C64_no_table_counterexample (L : GoLib) : ∃ b, runCalls QB.new [.select [exprColumn (some (.F (lit "1")))]] = .ok b ∧
    Returns L (.qb 0) question [b] (.panic .indexOutOfRange) :=
  ⟨_, rfl, returns_of_buildQuery (n := 20) (by kernel_rfl) (by simp)⟩

/-- `ExprColumn(nil)` as a column: `BuildQuery` panics. -/
theorem C64_column_of_nil_counterexample (L : GoLib) :
    ∃ b, runCalls QB.new [.from_ ⟨lit "t", []⟩, .select [exprColumn none]] = .ok b ∧
      Returns L (.qb 0) question [b] (.panic .nilDereference) :=
  ⟨_, rfl, returns_of_buildQuery (n := 20) (by kernel_rfl) (by simp)⟩

/-- A column with an expression that has a nil fragment in it: `BuildQuery` panics, although the same fragment alone
builds to nothing. -/
theorem C64_nil_fragment_counterexample (L : GoLib) :
    (∃ b, runCalls QB.new [.from_ ⟨lit "t", []⟩, .select [exprColumn (some (.mk (lit "1 #f1") [] [.nilFrag] [] []))]] = .ok b ∧
      Returns L (.qb 0) question [b] (.panic .nilDereference)) ∧
    Returns L (.frag (.mk (lit "1 #f1") [] [.nilFrag] [] [])) question [] (.ok (lit "1", [])) :=
  ⟨⟨_, rfl, returns_of_buildQuery (n := 20) (by kernel_rfl) (by simp)⟩,
    returns_of_buildQuery (n := 20) (by kernel_rfl) (by simp)⟩

/-- A nil column, on the other hand, is an error of `BuildQuery`. -/
example (L : GoLib) : ∃ b, runCalls QB.new [.from_ ⟨lit "t", []⟩, .select [.nilColumn]] = .ok b ∧
    Returns L (.qb 0) question [b] (.err (.wrap (lit "#join('#fragment', ', ')") (.wrap (lit "join")
      (.wrap (lit "fragment") (.recovered .nilDereference))))) :=
  ⟨_, rfl, returns_of_buildQuery (n := 20) (by kernel_rfl) (by simp)⟩

/-- A table name that is a template with a misplaced number: `BuildQuery` panics. -/
theorem C64_table_template_counterexample (L : GoLib) :
    ∃ b, runCalls QB.new [.from_ ⟨lit "#join(1, ',')", []⟩, .select [exprColumn (some (.F (lit "1")))]] = .ok b ∧
      Returns L (.qb 0) question [b] (.panic .reflectConvert) :=
  ⟨_, rfl, returns_of_buildQuery (n := 20) (by kernel_rfl) (by simp)⟩

end Sqlf.Props
