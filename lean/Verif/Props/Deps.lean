import Verif.Proofs.Needed
import Verif.Props.Query
/-!
# Properties of the tables and CTEs of a query (C55-C60)

The query builder is made by calls `cs`, with any number of builds in between (`Made`), and is built
in any context in which `#join` and `#fragment` are the built-in functions, for example in a new one.
-/

namespace Sqlf.Props

open Spec

/-- What a build of a query builder made by calls yields. -/
theorem yields {L : GoLib} {ctx : Ctx} (hj : BuiltIn L ctx (lit "join")) (hf : BuiltIn L ctx (lit "fragment"))
    {cs : List Call} {b : QB} (hm : Made L cs b) (hn : NoClash cs) {r : Nat} {s s' : St} (hr : s.heap[r]? = some b)
    {q : Str} (h : BuildsTo L ctx (.qb r) s (.ok q, s')) : ∃ dep touches p main rest dep0,
      QueryBuilt L ctx cs ((declaredBy cs).filter (cteKept dep)) ((tablesBy cs).filter (rowKept (distinctIn cs) dep))
        touches s p s' ∧ q = p.text ∧ tablesBy cs = main :: rest ∧
      TableDeps b main dep0 ∧ CteDeps b (tablesBy cs) dep0 dep := by
  obtain ⟨dep, ⟨h1, _, ⟨touches, p, mid, post, h2, h3, _⟩, _⟩⟩ := query_ok ⟨hj, hf⟩ hr hm h
  obtain ⟨main, rest, dep0, h4, h5, h6⟩ := hm.collected hn h1
  rw [hm.list hn] at h2
  exact ⟨dep, touches, p, main, rest, dep0, h2, h3, h4, h5, h6⟩

theorem rowKept_iff {d : Bool} {dep : Deps} {r : FromTable} :
    rowKept d dep r = true ↔ ¬ (d = true ∧ r.optional = true ∧ r.names ∉ dep) := by
  unfold rowKept
  cases d <;> cases r.optional <;> simp

theorem rowKept_mem {d : Bool} {dep : Deps} {r : FromTable} (h : r.names ∈ dep) : rowKept d dep r = true :=
  rowKept_iff.2 fun h1 => h1.2.2 h

/-- A query with optional and needed joins and CTEs. -/
def depCalls : List Call :=
  [.distinct, .select [tableColumn (lit "u") (lit "id")],
   .with_ (lit "x") (.frag (.F (lit "SELECT 1"))) [],
   .with_ (lit "y") (.frag (.F (lit "SELECT 2"))) [],
   .with_ (lit "z") (.frag (.F (lit "SELECT * FROM x"))) [lit "x"],
   .from_ ⟨lit "users", lit "u"⟩,
   .leftJoinOptional ⟨lit "orders", lit "o"⟩ (some (.Ff (lit "#f1 = #f2") [tableColumn (lit "o") (lit "user"), tableColumn (lit "u") (lit "id")])),
   .leftJoinOptional ⟨lit "z", lit "i"⟩ (some (.Ff (lit "#f1 = #f2") [tableColumn (lit "i") (lit "order"), tableColumn (lit "o") (lit "id")])),
   .leftJoinOptional ⟨lit "y", []⟩ (some (.F (lit "true"))),
   .where2 (tableColumn (lit "i") (lit "n")) (lit " > ") (.int 64 3)]

def depQB : QB := match runCalls QB.new depCalls with | .ok b => b | _ => QB.new

theorem depQB_made (L : GoLib) : Made L depCalls depQB := made_of_calls (by rfl)

theorem depQB_returns (L : GoLib) : Returns L (.qb 0) question [depQB] (.ok (lit ("With x AS (SELECT 1), z AS (SELECT * FROM x) " ++
    "SELECT DISTINCT u.id FROM users AS u LEFT JOIN orders AS o ON o.user = u.id LEFT JOIN z AS i ON i.order = o.id WHERE i.n > ?"),
    [.int 64 3])) :=
  returns_of_buildQuery (n := 200) (by kernel_rfl) (by simp)

theorem noClash_of {cs : List Call} (h : ((cs.filterMap fromGiven).all fun r =>
    (cs.filterMap joinGiven).all fun r' => r.names.appliedName ≠ r'.names.appliedName) = true) : NoClash cs := by
  intro r hr r' hr'
  simpa using List.all_eq_true.1 (List.all_eq_true.1 h r hr) r' hr'

/-- The hypotheses of the theorems of this file are met. -/
theorem depQB_builds (L : GoLib) : ∃ ctx s q s', BuiltIn L ctx (lit "join") ∧ BuiltIn L ctx (lit "fragment") ∧
    Made L depCalls depQB ∧ NoClash depCalls ∧ OneFrom depCalls ∧ s.heap[0]? = some depQB ∧
    BuildsTo L ctx (.qb 0) s (.ok q, s') := by
  obtain ⟨⟨o, s'⟩, h4, h5⟩ := returns_iff_buildsTo.1 (depQB_returns L)
  cases o with
  | ok t => exact ⟨rootCtx, _, t, s', (lists_rootCtx L).join, (lists_rootCtx L).fragment, depQB_made L, noClash_of (by decide +kernel),
    by unfold OneFrom; decide +kernel, rfl, h4⟩
  | err e => simp [queryOut] at h5
  | panic p => simp [queryOut] at h5
  | oof => simp [queryOut] at h5

/-! ## C55 -/

/-- **C55** is false of the code: a join under the name of an earlier, replaced main table is lost. -/
theorem C55_counterexample (L : GoLib) :
    ∃ cs b, runCalls QB.new cs = .ok b ∧ distinctIn cs = false ∧
      .innerJoin ⟨lit "a", []⟩ (some (.F (lit "true"))) ∈ cs ∧
      Returns L (.qb 0) question [b] (.ok (lit "SELECT 1 FROM c", [])) :=
  ⟨[.select [exprColumn (some (.F (lit "1")))], .from_ ⟨lit "a", []⟩, .from_ ⟨lit "c", []⟩,
    .innerJoin ⟨lit "a", []⟩ (some (.F (lit "true")))], _, rfl, rfl, by simp,
    returns_of_buildQuery (n := 200) (by kernel_rfl) (by simp)⟩

/-- **C55** (partial: no join uses a name given to `From`)  Without Distinct the FROM clause is built from
the main table and all joined tables, in order; with Distinct from those that are not optional, and some
of the others. -/
theorem C55_no_join_is_lost_partial (L : GoLib) (ctx : Ctx) (hj : BuiltIn L ctx (lit "join"))
    (hf : BuiltIn L ctx (lit "fragment")) (cs : List Call) (b : QB) (hm : Made L cs b) (hn : NoClash cs)
    (r : Nat) (s s' : St) (hr : s.heap[r]? = some b) (q : Str) (h : BuildsTo L ctx (.qb r) s (.ok q, s')) :
    ∃ ctes rows touches p, QueryBuilt L ctx cs ctes rows touches s p s' ∧ q = p.text ∧
      (distinctIn cs = false → rows = tablesBy cs) ∧
      rows.Sublist (tablesBy cs) ∧ ∀ row ∈ tablesBy cs, row.optional = false → row ∈ rows := by
  obtain ⟨dep, touches, p, main, rest, dep0, h1, h2, h3, h4, h5⟩ := yields hj hf hm hn hr h
  refine ⟨_, _, touches, p, h1, h2, ?_, List.filter_sublist, ?_⟩
  · intro hd
    rw [List.filter_eq_self]
    intro x _
    exact rowKept_iff.2 (by simp [hd])
  · intro row hrow ho
    exact List.mem_filter.2 ⟨hrow, rowKept_iff.2 (by simp [ho])⟩

/-- The hypotheses are met by a query with five tables and CTEs. -/
example (L : GoLib) : ∃ ctx s q s', BuiltIn L ctx (lit "join") ∧ BuiltIn L ctx (lit "fragment") ∧
    Made L depCalls depQB ∧ NoClash depCalls ∧ OneFrom depCalls ∧ s.heap[0]? = some depQB ∧
    BuildsTo L ctx (.qb 0) s (.ok q, s') := depQB_builds L

/-! ## C56 -/

/-- **C56** is false of the code: an optional join of a CTE that is not referenced, but that another
used CTE depends on, is kept. -/
theorem C56_counterexample (L : GoLib) :
    ∃ cs b, runCalls QB.new cs = .ok b ∧ NoClash cs ∧ distinctIn cs = true ∧
      .leftJoinOptional ⟨lit "d", []⟩ (some (.F (lit "d.x = 1"))) ∈ cs ∧ ¬ NeededBy cs (lit "d") ∧
      Returns L (.qb 0) question [b] (.ok (lit
        "With d AS (SELECT 1), e AS (SELECT 2) SELECT DISTINCT u.id FROM u INNER JOIN e ON true LEFT JOIN d ON d.x = 1", [])) := by
  refine ⟨[.distinct, .select [tableColumn (lit "u") (lit "id")], .with_ (lit "d") (.frag (.F (lit "SELECT 1"))) [],
    .with_ (lit "e") (.frag (.F (lit "SELECT 2"))) [lit "d"], .from_ ⟨lit "u", []⟩,
    .innerJoin ⟨lit "e", []⟩ (some (.F (lit "true"))),
    .leftJoinOptional ⟨lit "d", []⟩ (some (.F (lit "d.x = 1")))], _, rfl, noClash_of (by decide +kernel), rfl, by simp, ?_,
    returns_of_buildQuery (n := 200) (by kernel_rfl) (by simp)⟩
  intro h
  have : ∀ t, NeededBy [.distinct, .select [tableColumn (lit "u") (lit "id")], .with_ (lit "d") (.frag (.F (lit "SELECT 1"))) [],
    .with_ (lit "e") (.frag (.F (lit "SELECT 2"))) [lit "d"], .from_ ⟨lit "u", []⟩,
    .innerJoin ⟨lit "e", []⟩ (some (.F (lit "true"))),
    .leftJoinOptional ⟨lit "d", []⟩ (some (.F (lit "d.x = 1")))] t → t = lit "u" := by
    intro t ht
    induction ht with
    | root h => exact List.mem_singleton.1 h
    | on _ hr hu ih =>
      subst ih
      cases hr
      cases hu
  exact absurd (this _ h) (by decide)

/-- **C56** (one half, without restriction) With or without Distinct, a joined table that is needed by the
selected, filtering, grouping or ordering expressions, directly or through ON conditions, is kept. -/
theorem C56_needed_joins_are_kept_partial (L : GoLib) (ctx : Ctx) (hj : BuiltIn L ctx (lit "join"))
    (hf : BuiltIn L ctx (lit "fragment")) (cs : List Call) (b : QB) (hm : Made L cs b) (hn : NoClash cs)
    (r : Nat) (s s' : St) (hr : s.heap[r]? = some b) (q : Str) (h : BuildsTo L ctx (.qb r) s (.ok q, s')) :
    ∃ ctes rows touches p, QueryBuilt L ctx cs ctes rows touches s p s' ∧ q = p.text ∧
      ∀ row ∈ joinedBy cs, NeededBy cs row.names.appliedName → row ∈ rows := by
  obtain ⟨dep, touches, p, main, rest, dep0, h1, h2, h3, h4, h5⟩ := yields hj hf hm hn hr h
  refine ⟨_, _, touches, p, h1, h2, ?_⟩
  intro row hrow hneed
  obtain ⟨r', h6, h7⟩ := h4.needed _ ((hm.needed _).2 hneed)
  rw [hm.resolve, rowOf_of_joined hn hrow] at h6
  cases h6
  have hg : cs.filterMap gives ≠ [] := by
    intro h0
    have h8 := rowOf_of_joined hn hrow
    rw [rowOf_gives, h0] at h8
    cases h8
  refine List.mem_filter.2 ⟨?_, rowKept_mem (h5.mono _ h7)⟩
  rw [tablesBy_eq, if_neg hg]
  exact List.mem_cons_of_mem _ hrow

/-- The hypotheses are met, and there are needed joins: `o` is needed because the ON condition of `i` refers to it. -/
example : ∃ row ∈ joinedBy depCalls, row.names.appliedName = lit "o" ∧ row.optional = true ∧ NeededBy depCalls row.names.appliedName :=
  ⟨_, List.mem_cons_self, rfl, rfl,
    .on (NeededBy.root (cs := depCalls) (t := lit "i") (by decide +kernel)) (u := lit "o") rfl (by decide +kernel)⟩

example (L : GoLib) : ∃ ctx s q s', BuiltIn L ctx (lit "join") ∧ BuiltIn L ctx (lit "fragment") ∧
    Made L depCalls depQB ∧ NoClash depCalls ∧ OneFrom depCalls ∧ s.heap[0]? = some depQB ∧
    BuildsTo L ctx (.qb 0) s (.ok q, s') := depQB_builds L

/-- No CTE depends on the one used by the row, and no other row uses it. -/
def OnlyUse (cs : List Call) (row : FromTable) : Prop :=
  (∀ c ∈ declaredBy cs, row.names.name ∉ c.deps) ∧
  ∀ row' ∈ tablesBy cs, row'.names.name = row.names.name → row' = row

/-- **C56** (partial: if the join is an unaliased CTE, then there is no other use of that CTE, see
`C56_counterexample`) With Distinct, an optional join is kept if and only if it is needed by the
selected, filtering, grouping or ordering expressions, directly or through ON conditions of needed
joins. -/
theorem C56_optional_joins_partial (L : GoLib) (ctx : Ctx) (hj : BuiltIn L ctx (lit "join"))
    (hf : BuiltIn L ctx (lit "fragment")) (cs : List Call) (b : QB) (hm : Made L cs b) (hn : NoClash cs)
    (r : Nat) (s s' : St) (hr : s.heap[r]? = some b) (q : Str) (h : BuildsTo L ctx (.qb r) s (.ok q, s'))
    (hd : distinctIn cs = true) :
    ∃ ctes rows touches p, QueryBuilt L ctx cs ctes rows touches s p s' ∧ q = p.text ∧
      ∀ row ∈ joinedBy cs, row.optional = true →
        (row.names.alias = [] → (∃ c ∈ declaredBy cs, c.name = row.names.name) → OnlyUse cs row) →
        (row ∈ rows ↔ NeededBy cs row.names.appliedName) := by
  obtain ⟨dep, touches, p, main, rest, dep0, h1, h2, h3, h4, h5⟩ := yields hj hf hm hn hr h
  refine ⟨_, _, touches, p, h1, h2, ?_⟩
  intro row hrow hopt hc
  have hrow' := rowOf_of_joined hn hrow
  have hg : cs.filterMap gives ≠ [] := by
    intro h0
    rw [rowOf_gives, h0] at hrow'
    cases hrow'
  have hjoin := (lastNamed_some (mem_joinedBy.1 hrow)).1
  constructor
  · intro hk
    have hk := (List.mem_filter.1 hk).2
    rw [rowKept_iff] at hk
    have hk : row.names ∈ dep := Classical.byContradiction fun h0 => hk ⟨hd, hopt, h0⟩
    rcases h5.only _ hk with h6 | ⟨r', hr', ⟨at_, ha1, ha2, ha3⟩, c, hcn, d, hcd, hkd, _⟩
    · rcases h4.only _ h6 with h7 | ⟨t, r2, h7, h8, h9⟩
      · exfalso
        rw [tablesBy_eq, if_neg hg] at h3
        cases hmn : mainOf cs with
        | none =>
          rw [hmn] at h3
          cases h3
          obtain ⟨c, hc1, hc2⟩ := List.mem_filterMap.1 hjoin
          exact gives_row (joinGiven_some hc2) (by rw [h7]; rfl)
        | some m =>
          rw [hmn] at h3
          cases h3
          exact hn m (List.mem_of_getLast? hmn) row hjoin (by rw [h7]; rfl)
      · have : t = row.names.appliedName := by rw [← hm.names t r2 h8, h9]
        rw [← this]
        exact (hm.needed t).1 h7
    · exfalso
      have hal : row.names.alias = [] := by rw [hkd]
      have hnm : row.names.name = d.name := by rw [hkd]
      have hmem : d ∈ declaredBy cs := by
        rw [← hm.fields.ctes]
        exact cteNamed_mem (reach_named hcn hcd)
      obtain ⟨hu1, hu2⟩ := hc hal ⟨d, hmem, hnm.symm⟩
      cases hcd with
      | refl =>
        have : r' = row := hu2 r' hr' (by rw [hnm, cteNamed_name hcn])
        subst this
        refine ha3 ⟨by rw [hm.fields.distinct]; exact hd, hopt, ha2⟩
      | step hy hl hz =>
        cases hl
        rename_i y
        obtain ⟨m, hm1, hm2⟩ := List.mem_filterMap.1 hz
        rw [cteGet_eq] at hm2
        have hy' : y ∈ declaredBy cs := by
          rw [← hm.fields.ctes]
          exact cteNamed_mem (reach_named hcn hy)
        refine hu1 y hy' ?_
        rw [hnm, cteNamed_name hm2]
        exact hm1
  · intro hneed
    obtain ⟨r', h6, h7⟩ := h4.needed _ ((hm.needed _).2 hneed)
    rw [hm.resolve, hrow'] at h6
    cases h6
    refine List.mem_filter.2 ⟨?_, rowKept_mem (h5.mono _ h7)⟩
    rw [tablesBy_eq, if_neg hg]
    exact List.mem_cons_of_mem _ hrow

/-- The hypotheses are met, with kept joins `o` and `i` and a dropped join `y`. -/
example (L : GoLib) : ∃ ctx s q s', BuiltIn L ctx (lit "join") ∧ BuiltIn L ctx (lit "fragment") ∧
    Made L depCalls depQB ∧ NoClash depCalls ∧ OneFrom depCalls ∧ s.heap[0]? = some depQB ∧
    BuildsTo L ctx (.qb 0) s (.ok q, s') ∧ distinctIn depCalls = true := by
  obtain ⟨ctx, s, q, s', h⟩ := depQB_builds L
  exact ⟨ctx, s, q, s', h.1, h.2.1, h.2.2.1, h.2.2.2.1, h.2.2.2.2.1, h.2.2.2.2.2.1, h.2.2.2.2.2.2, rfl⟩

/-! ## C57 -/

/-- **C57** is false of the code: the ON condition of a join that is in the query refers to an optional
table that is not. -/
theorem C57_counterexample (L : GoLib) :
    ∃ cs b, runCalls QB.new cs = .ok b ∧ NoClash cs ∧ OneFrom cs ∧
      Returns L (.qb 0) question [b] (.ok (lit
        "SELECT DISTINCT u.id FROM u INNER JOIN i ON i.x = o.id", [])) ∧
      ∃ row, rowOf (lit "i") cs = some row ∧ lit "o" ∈ rowRefs row :=
  ⟨[.distinct, .select [tableColumn (lit "u") (lit "id")], .from_ ⟨lit "u", []⟩,
    .leftJoinOptional ⟨lit "o", []⟩ (some (.F (lit "o.u = u.id"))),
    .innerJoin ⟨lit "i", []⟩ (some (.Ff (lit "i.x = #f1") [tableColumn (lit "o") (lit "id")]))], _, rfl,
    noClash_of (by decide +kernel), by unfold OneFrom; decide +kernel,
    returns_of_buildQuery (n := 200) (by kernel_rfl) (by simp), _, rfl, by decide +kernel⟩

/-- **C57** (partial: the join is needed by the expressions, or the query is not DISTINCT, or the table is
not optional, see `C57_counterexample`) The tables the ON condition refers to are in the query. -/
theorem C57_tables_of_conditions_partial (L : GoLib) (ctx : Ctx) (hj : BuiltIn L ctx (lit "join"))
    (hf : BuiltIn L ctx (lit "fragment")) (cs : List Call) (b : QB) (hm : Made L cs b) (hn : NoClash cs) (ho : OneFrom cs)
    (r : Nat) (s s' : St) (hr : s.heap[r]? = some b) (q : Str) (h : BuildsTo L ctx (.qb r) s (.ok q, s')) :
    ∃ ctes rows touches p, QueryBuilt L ctx cs ctes rows touches s p s' ∧ q = p.text ∧
      (∀ t row u, NeededBy cs t → rowOf t cs = some row → u ∈ rowRefs row → ∃ row' ∈ rows, rowOf u cs = some row') ∧
      (∀ u row', rowOf u cs = some row' → distinctIn cs = false ∨ row'.optional = false → row' ∈ rows) := by
  obtain ⟨dep, touches, p, main, rest, dep0, h1, h2, h3, h4, h5⟩ := yields hj hf hm hn hr h
  refine ⟨_, _, touches, p, h1, h2, ?_, ?_⟩
  · intro t row u hneed hrow hu
    obtain ⟨row', h6, h7⟩ := h4.needed u ((hm.needed _).2 (.on hneed hrow hu))
    rw [hm.resolve] at h6
    exact ⟨row', List.mem_filter.2 ⟨rowOf_mem hn ho h6, rowKept_mem (h5.mono _ h7)⟩, h6⟩
  · intro u row' h6 h7
    refine List.mem_filter.2 ⟨rowOf_mem hn ho h6, rowKept_iff.2 ?_⟩
    rintro ⟨h8, h9, _⟩
    rcases h7 with h7 | h7
    · rw [h7] at h8; cases h8
    · rw [h7] at h9; cases h9

/-- The hypotheses are met. -/
example (L : GoLib) : ∃ ctx s q s', BuiltIn L ctx (lit "join") ∧ BuiltIn L ctx (lit "fragment") ∧
    Made L depCalls depQB ∧ NoClash depCalls ∧ OneFrom depCalls ∧ s.heap[0]? = some depQB ∧
    BuildsTo L ctx (.qb 0) s (.ok q, s') := depQB_builds L

/-! ## C58 -/

/-- **C58** is false of the code: if a join has the name of the main table, its ON condition is not
searched for references. -/
theorem C58_counterexample (L : GoLib) :
    ∃ cs b, runCalls QB.new cs = .ok b ∧ NeededBy cs (lit "z") ∧ rowOf (lit "z") cs = none ∧
      Returns L (.qb 0) question [b] (.ok (lit "SELECT a.id FROM INNER JOIN a ON z.id", [])) :=
  ⟨[.select [tableColumn (lit "a") (lit "id")], .from_ ⟨lit "a", []⟩,
    .innerJoin ⟨lit "a", []⟩ (some (.Ff (lit "#f1") [tableColumn (lit "z") (lit "id")]))], _, rfl,
    .on (.root (t := lit "a") (by decide +kernel)) rfl (by decide +kernel), rfl,
    returns_of_buildQuery (n := 200) (by kernel_rfl) (by simp)⟩

/-- **C58** (partial: no join uses a name given to `From`) If a table that the query needs was never given
to `From` or a join, the query does not build. -/
theorem C58_unknown_tables_partial (L : GoLib) (ctx : Ctx) (hj : BuiltIn L ctx (lit "join"))
    (hf : BuiltIn L ctx (lit "fragment")) (cs : List Call) (b : QB) (hm : Made L cs b) (hn : NoClash cs)
    (t : Str) (ht : NeededBy cs t)
    (hu : ∀ c ∈ cs, ∀ row, gives c = some row → row.names.appliedName ≠ t)
    (r : Nat) (s s' : St) (hr : s.heap[r]? = some b) (o : Out Str) (h : BuildsTo L ctx (.qb r) s (o, s')) :
    ∀ q, o ≠ .ok q := by
  rintro q rfl
  obtain ⟨dep, touches, p, main, rest, dep0, h1, h2, h3, h4, h5⟩ := yields hj hf hm hn hr h
  obtain ⟨row, h6, -⟩ := h4.needed t ((hm.needed _).2 ht)
  rw [hm.resolve, rowOf_gives] at h6
  obtain ⟨h7, h8⟩ := lastNamed_some h6
  obtain ⟨c, hc, hc'⟩ := List.mem_filterMap.1 h7
  exact hu c hc row hc' h8

/-- The hypotheses are met: `z` is needed by the condition and given by no call. -/
example (L : GoLib) : ∃ cs b, Made L cs b ∧ NoClash cs ∧ NeededBy cs (lit "z") ∧
    (∀ c ∈ cs, ∀ row, gives c = some row → row.names.appliedName ≠ lit "z") ∧
    Returns L (.qb 0) question [b] (.err (.fromUndefined (lit "z"))) :=
  ⟨[.select [tableColumn (lit "a") (lit "id")], .from_ ⟨lit "a", []⟩,
    .innerJoin ⟨lit "b", []⟩ (some (.Ff (lit "#f1 = #f2") [tableColumn (lit "b") (lit "id"), tableColumn (lit "z") (lit "id")])),
    .where2 (tableColumn (lit "b") (lit "x")) (lit " = ") (.int 64 1)], _, made_of_calls rfl,
    noClash_of (by decide +kernel), .on (.root (t := lit "b") (by decide +kernel)) rfl (by decide +kernel),
    by decide +kernel, returns_of_buildQuery (n := 200) (by kernel_rfl) (by simp)⟩

/-! ## C59 -/

/-- **C59** Collecting the dependencies of a query builder terminates, whatever references there are
between ON conditions and between CTEs: the recursions, with enough fuel, never run out of it, and their
results do not depend on the amount. -/
theorem C59_dependency_analysis_terminates (b : QB) :
    b.collectDependencies ≠ .oof ∧
    (∃ N, ∀ n, N ≤ n → ∀ dep t, b.depsFromTable n dep t ≠ .oof ∧ b.depsFromTable n dep t = b.depsFromTable N dep t) ∧
    (∃ N, ∀ n, N ≤ n → ∀ dep, ∀ c ∈ b.ctes, b.depsFromCte n dep c ≠ .oof ∧ b.depsFromCte n dep c = b.depsFromCte N dep c) ∧
    ∀ n, b.depFuel ≤ n → ∀ dep, b.depsFromTable n dep = b.depsFromTable b.depFuel dep := by
  refine ⟨collectDependencies_not_oof b, ⟨b.tablesDict.length + 1, fun n hn dep t => ?_⟩,
    ⟨b.ctes.length + 1, fun n hn dep c hc => ?_⟩, fun n hn dep => ?_⟩
  · exact ⟨(dfs_table_fuel b (by omega)).1 t, congrFun ((dfs_table_fuel b (by omega)).2 n hn) t⟩
  · exact ⟨(dfs_cte_fuel b hc (by omega)).1, (dfs_cte_fuel b hc (by omega)).2 n hn⟩
  · exact (dfs_table_fuel b (by unfold QB.depFuel; omega)).2 n hn

/-! ## C60 -/

/-- **C60** is false of the code: the CTE `d` that the used CTE `c` depends on is missing, because the
unaliased table has the same key as the CTE. -/
theorem C60_counterexample (L : GoLib) :
    ∃ cs b, runCalls QB.new cs = .ok b ∧ NoClash cs ∧ OneFrom cs ∧
      CteNeeded (declaredBy cs) (tablesBy cs) (lit "d") ∧
      Returns L (.qb 0) question [b] (.ok (lit "With c AS (SELECT * FROM d) SELECT c.id FROM c", [])) :=
  ⟨[.select [tableColumn (lit "c") (lit "id")], .with_ (lit "d") (.frag (.F (lit "SELECT 1"))) [],
    .with_ (lit "c") (.frag (.F (lit "SELECT * FROM d"))) [lit "d"], .from_ ⟨lit "c", []⟩], _, rfl,
    noClash_of (by decide +kernel), by unfold OneFrom; decide +kernel,
    .dep (.table (r := fromRow ⟨lit "c", []⟩) (List.mem_singleton.2 rfl) rfl) rfl (List.mem_singleton.2 rfl) rfl,
    returns_of_buildQuery (n := 200) (by kernel_rfl) (by simp)⟩

theorem cteNeeded_iff {L : GoLib} {cs : List Call} {b : QB} (hm : Made L cs b) {rows : List FromTable} {n : Str} :
    NeededCte b rows n ↔ CteNeeded (declaredBy cs) rows n := by
  rw [← hm.fields.ctes]
  constructor
  · intro h
    induction h with
    | table hr hc => exact .table hr hc
    | dep _ hc hm hd ih => exact .dep ih hc hm hd
  · intro h
    induction h with
    | table hr hc => exact .table hr hc
    | dep _ hc hm hd ih => exact .dep ih hc hm hd

/-- The rows with names among the dependencies. -/
theorem dep_row {L : GoLib} {cs : List Call} {b : QB} (hm : Made L cs b) (hn : NoClash cs) (ho : OneFrom cs)
    {main : FromTable} {rest : List FromTable} {dep0 : Deps} (h3 : tablesBy cs = main :: rest) (h4 : TableDeps b main dep0)
    {k : TableAliased} (hk : k ∈ dep0) : ∃ row ∈ tablesBy cs, row.names = k := by
  rcases h4.only _ hk with h7 | ⟨t, r2, h7, h8, h9⟩
  · exact ⟨main, by rw [h3]; exact List.mem_cons_self, h7.symm⟩
  · rw [hm.resolve] at h8
    exact ⟨r2, rowOf_mem hn ho h8, h9⟩

/-- A marked CTE is needed. -/
theorem cte_only {L : GoLib} {cs : List Call} {b : QB} (hm : Made L cs b) (hn : NoClash cs) (ho : OneFrom cs)
    {main : FromTable} {rest : List FromTable} {dep0 dep : Deps} (h3 : tablesBy cs = main :: rest) (h4 : TableDeps b main dep0)
    (h5 : CteDeps b (tablesBy cs) dep0 dep) {c : Cte} (hc : c ∈ declaredBy cs) (hk : (⟨c.name, []⟩ : TableAliased) ∈ dep) :
    CteNeeded (declaredBy cs) ((tablesBy cs).filter (rowKept (distinctIn cs) dep)) c.name := by
  rw [← cteNeeded_iff hm]
  obtain ⟨d, hd⟩ := cteNamed_of_mem (b := b) (by rw [hm.fields.ctes]; exact hc)
  rcases h5.only _ hk with h6 | ⟨r', hr', ⟨at_, ha1, ha2, ha3⟩, c', hcn, d', hcd, hkd, h7⟩
  · obtain ⟨row, hrow, e⟩ := dep_row hm hn ho h3 h4 h6
    have e' : row.names.name = c.name := by rw [e]
    rw [← e'] at hd ⊢
    exact .table (List.mem_filter.2 ⟨hrow, rowKept_mem (by rw [e]; exact hk)⟩) hd
  · have hn' : c.name = d'.name := by
      simp only [TableAliased.mk.injEq, and_true] at hkd
      exact hkd
    rw [hn']
    have hkept : rowKept (distinctIn cs) dep r' = true := by
      rw [rowKept_iff]
      rintro ⟨k1, k2, k3⟩
      exact ha3 ⟨by rw [hm.fields.distinct]; exact k1, k2, fun k4 => k3 (ha1 _ k4)⟩
    have h8 : cteNamed b c'.name = some c' := by rw [cteNamed_name hcn]; exact hcn
    refine reach_needed h8 ?_ hcd
    rw [cteNamed_name hcn]
    exact .table (List.mem_filter.2 ⟨hr', hkept⟩) hcn

/-- A CTE used by a table of the query is marked. -/
theorem cte_used {L : GoLib} {cs : List Call} {b : QB} (hm : Made L cs b) {dep0 dep : Deps}
    (h5 : CteDeps b (tablesBy cs) dep0 dep) {row : FromTable}
    (hrow : row ∈ (tablesBy cs).filter (rowKept (distinctIn cs) dep)) {c : Cte} (hc : cteNamed b row.names.name = some c) :
    (⟨row.names.name, []⟩ : TableAliased) ∈ dep := by
  obtain ⟨hr1, hr2⟩ := List.mem_filter.1 hrow
  by_cases hk : Kept b dep0 row
  · exact h5.used row hr1 hk c hc
  · have hk : b.distinct = true ∧ row.optional = true ∧ row.names ∉ dep0 := Classical.not_not.1 hk
    rw [rowKept_iff] at hr2
    have hin : row.names ∈ dep := Classical.byContradiction fun h0 =>
      hr2 ⟨by rw [← hm.fields.distinct]; exact hk.1, hk.2.1, h0⟩
    rcases h5.only _ hin with h6 | ⟨_, _, _, _, _, d, _, hkd, _⟩
    · exact absurd h6 hk.2.2
    · have : row.names = ⟨row.names.name, []⟩ := by rw [hkd]
      rw [this] at hin
      exact hin

/-- **C60** (one half) Only needed CTEs are emitted, in the order of their declaration, and all that are used
by tables. -/
theorem C60_only_needed_ctes_partial (L : GoLib) (ctx : Ctx) (hj : BuiltIn L ctx (lit "join"))
    (hf : BuiltIn L ctx (lit "fragment")) (cs : List Call) (b : QB) (hm : Made L cs b) (hn : NoClash cs) (ho : OneFrom cs)
    (r : Nat) (s s' : St) (hr : s.heap[r]? = some b) (q : Str) (h : BuildsTo L ctx (.qb r) s (.ok q, s')) :
    ∃ ctes rows touches p, QueryBuilt L ctx cs ctes rows touches s p s' ∧ q = p.text ∧
      ctes.Sublist (declaredBy cs) ∧ (∀ c ∈ ctes, CteNeeded (declaredBy cs) rows c.name) ∧
      ∀ row ∈ rows, ∀ c ∈ declaredBy cs, c.name = row.names.name → c ∈ ctes := by
  obtain ⟨dep, touches, p, main, rest, dep0, h1, h2, h3, h4, h5⟩ := yields hj hf hm hn hr h
  refine ⟨_, _, touches, p, h1, h2, List.filter_sublist, ?_, ?_⟩
  · intro c hc
    obtain ⟨hc1, hc2⟩ := List.mem_filter.1 hc
    exact cte_only hm hn ho h3 h4 h5 hc1 (by simpa [cteKept] using hc2)
  · intro row hrow c hc e
    refine List.mem_filter.2 ⟨hc, ?_⟩
    obtain ⟨d, hd⟩ := cteNamed_of_mem (b := b) (by rw [hm.fields.ctes]; exact hc)
    rw [e] at hd
    have := cte_used hm h5 hrow hd
    simpa [cteKept, e] using this

/-- **C60** (partial: tables that use a CTE with dependencies have an alias, see `C60_counterexample`)
A CTE is emitted if and only if a table of the FROM clause uses its name or a needed CTE declares it as
dependency; CTEs appear in the order of their declaration. -/
theorem C60_exactly_needed_ctes_partial (L : GoLib) (ctx : Ctx) (hj : BuiltIn L ctx (lit "join"))
    (hf : BuiltIn L ctx (lit "fragment")) (cs : List Call) (b : QB) (hm : Made L cs b) (hn : NoClash cs) (ho : OneFrom cs)
    (ha : ∀ row ∈ tablesBy cs, ∀ c ∈ declaredBy cs, c.name = row.names.name → c.deps ≠ [] → row.names.alias ≠ [])
    (r : Nat) (s s' : St) (hr : s.heap[r]? = some b) (q : Str) (h : BuildsTo L ctx (.qb r) s (.ok q, s')) :
    ∃ rows touches p, ∃ keep : Cte → Bool,
      QueryBuilt L ctx cs ((declaredBy cs).filter keep) rows touches s p s' ∧ q = p.text ∧
      ∀ c ∈ declaredBy cs, keep c = true ↔ CteNeeded (declaredBy cs) rows c.name := by
  obtain ⟨dep, touches, p, main, rest, dep0, h1, h2, h3, h4, h5⟩ := yields hj hf hm hn hr h
  refine ⟨_, touches, p, _, h1, h2, ?_⟩
  intro c hc
  constructor
  · intro hk
    exact cte_only hm hn ho h3 h4 h5 hc (by simpa [cteKept] using hk)
  · intro hneed
    have gen : ∀ n, NeededCte b ((tablesBy cs).filter (rowKept (distinctIn cs) dep)) n → (⟨n, []⟩ : TableAliased) ∈ dep := by
      intro n hneed
      induction hneed with
      | table hrow hd => exact cte_used hm h5 hrow hd
      | @dep n m c d hneed hc hmc hd ih =>
        rcases h5.only _ ih with h6 | ⟨r', hr', _, c', hcn, d', hcd, hkd, h7⟩
        · obtain ⟨row, hrow, e⟩ := dep_row hm hn ho h3 h4 h6
          have hcd : c ∈ declaredBy cs := by
            rw [← hm.fields.ctes]
            exact cteNamed_mem hc
          exfalso
          refine ha row hrow c hcd (by rw [e, cteNamed_name hc]) (List.ne_nil_of_mem hmc) (by rw [e])
        · have hn' : n = d'.name := by
            simp only [TableAliased.mk.injEq, and_true] at hkd
            exact hkd
          have h8 := reach_named hcn hcd
          rw [← hn', hc] at h8
          cases h8
          exact h7 m hmc d hd
    have := gen c.name ((cteNeeded_iff hm).2 hneed)
    simpa [cteKept] using this

/-- The hypotheses are met; `x` is emitted because `z`, used by the aliased table `i`, depends on it. -/
example (L : GoLib) : (∃ ctx s q s', BuiltIn L ctx (lit "join") ∧ BuiltIn L ctx (lit "fragment") ∧
    Made L depCalls depQB ∧ NoClash depCalls ∧ OneFrom depCalls ∧ s.heap[0]? = some depQB ∧
    BuildsTo L ctx (.qb 0) s (.ok q, s')) ∧
    ∀ row ∈ tablesBy depCalls, ∀ c ∈ declaredBy depCalls, c.name = row.names.name → c.deps ≠ [] → row.names.alias ≠ [] := by
  refine ⟨depQB_builds L, ?_⟩
  have : ((tablesBy depCalls).all fun row => (declaredBy depCalls).all fun c =>
      !(decide (c.name = row.names.name)) || c.deps.isEmpty || !row.names.alias.isEmpty) = true := by decide +kernel
  intro row hrow c hc e hd
  have := List.all_eq_true.1 (List.all_eq_true.1 this row hrow) c hc
  simpa [e, hd] using this

end Sqlf.Props
