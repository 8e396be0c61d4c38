import Verif.Proofs.Reorder
import Verif.Proofs.Api
import Verif.Proofs.Ev
/-!
# Properties of sequences of calls of a query builder (C63, C65, C69, C70, C74)
-/

namespace Sqlf.Props

open Spec

/-- A query with joins, called in an unusual order. -/
def sampleCalls : List Call :=
  [.select [tableColumn (lit "u") (lit "id")],
   .leftJoinOptional ⟨lit "orders", lit "o"⟩ (some (.F (lit "o.user_id = u.id"))),
   .from_ ⟨lit "users", lit "u"⟩,
   .innerJoin ⟨lit "groups", lit "g"⟩ (some (.F (lit "g.id = u.group_id"))),
   .limit 10]

/-! ## C63 -/

/-- **C63 (partial)** Joins with a table and a non-nil ON condition never panic, whatever the state
of the query builder.  Missing: nil ON conditions and `CrossJoin`. -/
theorem C63_joins_never_panic_partial (b : QB) (t : TableAliased) (on : Fragment) :
    (∃ b', b.innerJoin t (some on) = .ok b') ∧ (∃ b', b.leftJoin t (some on) = .ok b') ∧
    (∃ b', b.leftJoinOptional t (some on) = .ok b') ∧ (∃ b', b.rightJoin t (some on) = .ok b') ∧
    (∃ b', b.fullJoin t (some on) = .ok b') := by
  have h : ∀ k opt, ∃ b', b.join k t (some on) opt = .ok b' := by
    intro k opt
    by_cases ht : t.name = []
    · unfold QB.join; rw [if_pos ht]; exact ⟨_, rfl⟩
    · exact ⟨_, join_eq ht⟩
  exact ⟨h _ _, h _ _, h _ _, h _ _, h _ _⟩

/-- **C63** is false of the code: `CrossJoin` panics for every table with a name. -/
theorem C63_counterexample (b : QB) (t : TableAliased) (h : t.name ≠ []) :
    b.crossJoin t = .panic .nilDereference := join_nil h

/-- **C63 (partial)** A sequence of calls panics exactly if one of the calls does by itself, which
does not depend on the calls before it. -/
theorem C63_panics_are_local_partial (b : QB) (cs : List Call) :
    (∃ b', runCalls b cs = .ok b') ↔ ∀ c ∈ cs, ¬ CallPanics c := calls_fine cs b

example : ∀ c ∈ sampleCalls, ¬ CallPanics c := by
  intro c hc
  simp only [sampleCalls, List.mem_cons, List.not_mem_nil, or_false] at hc
  rcases hc with rfl | rfl | rfl | rfl | rfl <;> simp [CallPanics, joinOf]

/-! ## C65 -/

/-- **C65** `From` can be called before, between or after the other calls, in particular joins:
the query builders give the same result, in any context of other query builders, at any fuel. -/
theorem C65_from_in_any_order (L : GoLib) (t : TableAliased) (ht : t.name ≠ []) (cs1 cs2 : List Call)
    (hone : (cs1 ++ cs2).filterMap fromGiven = [])
    (hname : ∀ r ∈ (cs1 ++ cs2).filterMap joinGiven, r.names.appliedName ≠ t.appliedName)
    (hfine : ∀ c ∈ cs1 ++ cs2, ¬ CallPanics c) :
    ∃ b b', runCalls QB.new (cs1 ++ .from_ t :: cs2) = .ok b ∧
      runCalls QB.new (cs1 ++ cs2 ++ [.from_ t]) = .ok b' ∧
      ∀ (c : Builder) (style : Style) (heap : List QB) (r : Nat) o, Returns L c style (heap.set r b') o ↔ Returns L c style (heap.set r b) o := by
  obtain ⟨b, hb⟩ := (calls_fine (cs1 ++ .from_ t :: cs2) QB.new).2 (by
    intro c hc
    simp only [List.mem_append, List.mem_cons] at hc
    rcases hc with hc | rfl | hc
    · exact hfine c (by simp [hc])
    · simp [CallPanics, joinOf]
    · exact hfine c (by simp [hc]))
  obtain ⟨b', hb'⟩ := (calls_fine (cs1 ++ cs2 ++ [.from_ t]) QB.new).2 (by
    intro c hc
    simp only [List.mem_append, List.mem_singleton] at hc
    rcases hc with hc | rfl
    · exact hfine c (by simp [hc])
    · simp [CallPanics, joinOf])
  exact ⟨b, b', hb, hb', fun c style heap r o => sameTables_returns (from_reorder ht hone hname hb hb') L c style heap r o⟩

/-- The hypotheses of C65 hold for the sample, with `From` moved behind the joins. -/
example : ([Call.select [tableColumn (lit "u") (lit "id")],
    .leftJoinOptional ⟨lit "orders", lit "o"⟩ (some (.F (lit "o.user_id = u.id")))] ++
    [Call.innerJoin ⟨lit "groups", lit "g"⟩ (some (.F (lit "g.id = u.group_id"))), .limit 10]).filterMap fromGiven = [] ∧
    (∀ r ∈ ([Call.select [tableColumn (lit "u") (lit "id")],
    .leftJoinOptional ⟨lit "orders", lit "o"⟩ (some (.F (lit "o.user_id = u.id")))] ++
    [Call.innerJoin ⟨lit "groups", lit "g"⟩ (some (.F (lit "g.id = u.group_id"))), .limit 10]).filterMap joinGiven,
      r.names.appliedName ≠ (⟨lit "users", lit "u"⟩ : TableAliased).appliedName) := by
  refine ⟨rfl, ?_⟩
  intro r hr
  simp [joinGiven, gives, joinOf] at hr
  rcases hr with ⟨-, rfl⟩ | ⟨-, rfl⟩ <;> decide +kernel

/-! ## C69 -/

/-- **C69** Once `From` or a join was called with an empty table name, building fails whatever was
called before and is called afterwards, and the error lists all these calls in their order. -/
theorem C69_errors_are_sticky (L : GoLib) (cs : List Call) (b : QB) (h : runCalls QB.new cs = .ok b)
    (he : cs.filterMap complaint ≠ []) (style : Style) (heap : List QB) (r : Nat) (hr : heap[r]? = some b) :
    Returns L (.qb r) style heap (.err (.collected (report (cs.filterMap complaint)))) := by
  have hne : b.errors.length ≠ 0 := by
    rw [calls_complaints h]
    intro h0
    exact he (List.map_eq_nil_iff.1 (List.append_eq_nil_iff.1 (List.eq_nil_of_length_eq_zero h0)).2)
  rw [← anyError_calls h]
  refine returns_of_buildQuery (n := 1) ?_ (by simp [anyError])
  unfold buildQuery
  rw [buildQueryS_eq]
  have : run L 1 rootCtx (.build (.qb r)) (St.init style heap) = (.err (anyError b.errors), St.init style heap) := by
    show buildInternal L (run L 0) 0 rootCtx r (St.init style heap) = _
    unfold buildInternal
    have hg : getQB r (St.init style heap) = (.ok b, St.init style heap) := by
      unfold getQB St.init
      rw [hr]
    exact (bind_of_ok hg).trans (congrFun (if_pos hne) _)
  rw [this]
  rfl

/-- A query builder that was never given an empty table name does not fail that way before it is built. -/
theorem C69_no_errors_without_cause (cs : List Call) (b : QB) (h : runCalls QB.new cs = .ok b)
    (he : cs.filterMap complaint = []) : b.errors = [] := by
  rw [calls_complaints h, he]
  rfl

example : ∃ b, runCalls QB.new ([.innerJoin ⟨[], lit "x"⟩ none] ++ sampleCalls ++ [.from_ ⟨[], []⟩]) = .ok b ∧
    ([Call.innerJoin ⟨[], lit "x"⟩ none] ++ sampleCalls ++ [Call.from_ ⟨[], []⟩]).filterMap complaint =
      [lit "join table name is empty", lit "from table is empty"] ∧
    report [lit "join table name is empty", lit "from table is empty"] =
      lit "collected errors: \n - join table name is empty\n - from table is empty\n" :=
  ⟨_, rfl, by decide +kernel, by decide +kernel⟩

/-! ## C70 -/

/-- **C70** After any sequence of calls, a reference to a table resolves to what the last call
under that name gave: the alias, or the name of a table without alias, of every table given to
`From` or a join is known, and no others are. -/
theorem C70_tables_stay_addressable (cs : List Call) (b : QB) (h : runCalls QB.new cs = .ok b) (n : Str) :
    resolve b n = rowOf n cs := by
  rw [calls_resolve dictOk_new h]
  cases rowOf n cs <;> rfl

example : ∃ b, runCalls QB.new sampleCalls = .ok b ∧
    rowOf (lit "u") sampleCalls = some (fromRow ⟨lit "users", lit "u"⟩) ∧
    rowOf (lit "users") sampleCalls = none :=
  ⟨_, rfl, by rfl, by rfl⟩

/-! ## C74 -/

/-- **C74** A join under the name of a joined table replaces that table in place and leaves all
others unchanged. -/
theorem C74_joining_again_replaces (cs : List Call) (c : Call) (b b' : QB) (r : FromTable)
    (h : runCalls QB.new cs = .ok b) (hc : c.apply b = .ok b') (hr : joinGiven c = some r)
    (hfrom : ∀ m ∈ cs.filterMap fromGiven, m.names.appliedName ≠ r.names.appliedName)
    (hagain : ∃ x ∈ cs.filterMap joinGiven, x.names.appliedName = r.names.appliedName) :
    b'.tableList = b.tableList.map fun x =>
      if x.names.appliedName = r.names.appliedName then r else x := by
  obtain ⟨F, hFdef⟩ : ∃ F : Str → Prop, F = fun n => ∃ m ∈ cs.filterMap fromGiven, m.names.appliedName = n := ⟨_, rfl⟩
  have hF : FromNames F cs := by
    intro t ht hne
    rw [hFdef]
    exact ⟨fromRow t, List.mem_filterMap.2 ⟨_, ht, by simp [fromGiven, gives, hne]⟩, rfl⟩
  have hnF : ¬ F r.names.appliedName := by
    rw [hFdef]
    rintro ⟨m, hm, e⟩
    exact hfrom m hm e
  exact join_again h hc hr hF hnF hagain

/-- The hypotheses are met by joining the first table of the sample again. -/
example : ∃ b b', runCalls QB.new sampleCalls = .ok b ∧
    (Call.innerJoin ⟨lit "others", lit "o"⟩ (some (.F (lit "true")))).apply b = .ok b' ∧
    b'.tableList.map (·.names) = [⟨lit "users", lit "u"⟩, ⟨lit "others", lit "o"⟩, ⟨lit "groups", lit "g"⟩] :=
  ⟨_, _, rfl, rfl, by decide +kernel⟩

end Sqlf.Props
