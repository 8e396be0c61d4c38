import Verif.Proofs.AnyCalls
import Verif.KernelRfl
/-!
# C55, C58, C60 for any calls, whatever names they use
-/

namespace Sqlf.Props

open Spec

/-- **C60** (and C55, C56, C57) Exactly which CTEs and tables a query has, whatever was called: the CTEs `CteWritten` and
the rows `RowWritten` (`Verif.Spec.AnyCalls`), in the order in which they were declared and joined. -/
theorem C60_written_by_any_calls (L : GoLib) (ctx : Ctx) (hj : BuiltIn L ctx (lit "join"))
    (hf : BuiltIn L ctx (lit "fragment")) (cs : List Call) (b : QB) (hm : Made L cs b)
    (r : Nat) (s s' : St) (hr : s.heap[r]? = some b) (q : Str) (h : BuildsTo L ctx (.qb r) s (.ok q, s')) :
    ∃ (writes : Cte → Bool) (joins : FromTable → Bool) (touches : List Builder) (p : Parts),
      QueryBuilt L ctx cs ((declaredBy cs).filter writes) ((rowsBy cs).filter joins) touches s p s' ∧ q = p.text ∧
      (∀ c ∈ declaredBy cs, writes c = true ↔ CteWritten cs c.name) ∧
      ∀ row ∈ rowsBy cs, joins row = true ↔ RowWritten cs row := by
  obtain ⟨dep, ⟨h1, _, ⟨touches, p, mid, post, h2, h3, _⟩, _⟩⟩ := query_ok ⟨hj, hf⟩ hr hm h
  obtain ⟨main, rest, dep0, h4, h5, h6⟩ := collected_written hm h1
  obtain ⟨h7, h8⟩ := written_iff hm h4 h5 h6
  rw [hm.rows] at h2
  refine ⟨_, _, touches, p, h2, h3, fun c hc => ?_, h8⟩
  rw [← h7 c hc]
  simp [cteKept]

/-- **C55** Exactly which tables are in the FROM clause of a query without Distinct, whatever was called: the rows
`rowsBy`, in order. -/
theorem C55_tables_of_any_calls (L : GoLib) (ctx : Ctx) (hj : BuiltIn L ctx (lit "join"))
    (hf : BuiltIn L ctx (lit "fragment")) (cs : List Call) (b : QB) (hm : Made L cs b) (hd : distinctIn cs = false)
    (r : Nat) (s s' : St) (hr : s.heap[r]? = some b) (q : Str) (h : BuildsTo L ctx (.qb r) s (.ok q, s')) :
    ∃ ctes touches p, QueryBuilt L ctx cs ctes (rowsBy cs) touches s p s' ∧ q = p.text := by
  obtain ⟨writes, joins, touches, p, h1, h2, -, h3⟩ := C60_written_by_any_calls L ctx hj hf cs b hm r s s' hr q h
  have : (rowsBy cs).filter joins = rowsBy cs :=
    List.filter_eq_self.2 fun row hrow => (h3 row hrow).2 (.inl ⟨hrow, .inl hd⟩)
  rw [this] at h1
  exact ⟨_, touches, p, h1, h2⟩

/-- **C55** These are all joined tables and the main table, if no join uses a name given to `From`. -/
theorem C55_rows_without_clash (L : GoLib) (cs : List Call) (b : QB) (hm : Made L cs b) (hn : NoClash cs) :
    rowsBy cs = tablesBy cs := by
  rw [← hm.rows, hm.list hn]

/-- **C58** Whatever was called: if a table that is looked up was never given to `From` or a join, the query does
not build. -/
theorem C58_looked_up_tables_are_given (L : GoLib) (ctx : Ctx) (hj : BuiltIn L ctx (lit "join"))
    (hf : BuiltIn L ctx (lit "fragment")) (cs : List Call) (b : QB) (hm : Made L cs b) (t : Str) (ht : LookedUp cs t)
    (hu : ∀ c ∈ cs, ∀ row, gives c = some row → row.names.appliedName ≠ t)
    (r : Nat) (s s' : St) (hr : s.heap[r]? = some b) (o : Out Str) (h : BuildsTo L ctx (.qb r) s (o, s')) :
    ∀ q, o ≠ .ok q := by
  rintro q rfl
  obtain ⟨dep, ⟨h1, _⟩⟩ := query_ok ⟨hj, hf⟩ hr hm h
  obtain ⟨main, rest, dep0, h4, h5, h6⟩ := collected_written hm h1
  obtain ⟨row, h7, -⟩ := h5.needed t ht
  rw [rowOf_gives] at h7
  obtain ⟨h8, h9⟩ := lastNamed_some h7
  obtain ⟨c, hc, hg⟩ := List.mem_filterMap.1 h8
  exact hu c hc row hg h9

private def clashCalls : List Call :=
  [.select [tableColumn (lit "a") (lit "id")], .with_ (lit "d") (.frag (.F (lit "SELECT 0"))) [],
    .with_ (lit "a") (.frag (.F (lit "SELECT 1"))) [lit "d"],
    .from_ ⟨lit "a", []⟩, .from_ ⟨lit "c", []⟩, .innerJoin ⟨lit "b", []⟩ (some (.F (lit "true"))),
    .innerJoin ⟨lit "a", []⟩ (some (.Ff (lit "#f1") [tableColumn (lit "b") (lit "id")])),
    .innerJoin ⟨lit "c", []⟩ (some (.Ff (lit "#f1") [tableColumn (lit "z") (lit "id")]))]

private def clashQB : QB := match runCalls QB.new clashCalls with | .ok b => b | _ => QB.new

/-- Two tables given to `From`, and joins with both names: the second join takes the place of the main table and its
condition is not searched; the first one is lost, but `a`, which is looked up, is written as a CTE.  -/
example (L : GoLib) : Made L clashCalls clashQB ∧ ¬ NoClash clashCalls ∧ distinctIn clashCalls = false ∧
    Returns L (.qb 0) question [clashQB]
      (.ok (lit "With a AS (SELECT 1) SELECT a.id FROM INNER JOIN c ON z.id INNER JOIN b ON true", [])) ∧
    (rowsBy clashCalls).map (·.names) = [⟨lit "c", []⟩, ⟨lit "b", []⟩] ∧
    LookedUp clashCalls (lit "b") ∧ CteWritten clashCalls (lit "a") := by
  have ha : LookedUp clashCalls (lit "a") := .root (by decide +kernel)
  refine ⟨made_of_calls rfl, ?_, rfl, returns_of_buildQuery (n := 200) (by kernel_rfl) (by simp), by decide +kernel,
    .on ha rfl (by decide +kernel) (by decide +kernel), .used (.inr ⟨_, _, ha, rfl, rfl⟩) rfl⟩
  intro h
  exact h (fromRow ⟨lit "c", []⟩) (by simp [clashCalls, fromGiven, gives]; exact .inr (by decide))
    (joinRow ⟨lit "c", []⟩ (lit "INNER JOIN") (.Ff (lit "#f1") [tableColumn (lit "z") (lit "id")]) false)
    (by simp [clashCalls, joinGiven, gives, joinOf]; exact .inr (.inr (by decide))) rfl

/-- The other dependencies of that CTE are not written. -/
example : ¬ CteWritten clashCalls (lit "d") := by
  have hl : ∀ t, LookedUp clashCalls t → t = lit "a" ∨ t = lit "b" := by
    intro t ht
    induction ht with
    | root h => exact .inl (List.mem_singleton.1 h)
    | on _ hr _ hu ih =>
      rcases ih with rfl | rfl
      · cases hr
        exact .inr (List.mem_singleton.1 hu)
      · cases hr
        cases hu
  have ha : InUse clashCalls ⟨lit "a", []⟩ := .inr ⟨lit "a", _, .root (by decide +kernel), rfl, rfl⟩
  have : ∀ n, CteWritten clashCalls n → n = lit "a" := by
    intro n h
    induction h with
    | used h hc =>
      rcases h with h | ⟨t, r, h1, h2, h3⟩
      · cases h; cases hc
      · rcases hl t h1 with rfl | rfl
        · cases h2; cases h3; rfl
        · cases h2; cases h3; cases hc
    | row hr hc =>
      rcases List.mem_cons.1 (show _ ∈ [_, _] from hr.1) with rfl | h
      · cases hc
      · cases List.mem_singleton.1 h
        cases hc
    | dep _ hp _ _ _ ih => subst ih; exact absurd ha hp
  intro h
  exact absurd (this _ h) (by decide)

/-- A table that is looked up and was never given. -/
example : ∃ cs, LookedUp cs (lit "z") ∧ ∀ c ∈ cs, ∀ row, gives c = some row → row.names.appliedName ≠ lit "z" :=
  ⟨[.select [tableColumn (lit "z") (lit "id")], .from_ ⟨lit "a", []⟩, .innerJoin ⟨lit "a", []⟩ (some (.F (lit "true")))],
    .root (by decide +kernel), by
      intro c hc row h
      simp only [List.mem_cons, List.not_mem_nil, or_false] at hc
      rcases hc with rfl | rfl | rfl
      · cases h
      · cases h; decide
      · cases h; decide⟩

end Sqlf.Props
