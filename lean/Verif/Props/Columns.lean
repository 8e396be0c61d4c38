import Verif.Proofs.Needed
import Verif.Proofs.Plain
import Verif.Props.Query
import Verif.KernelRfl
/-!
# C01 (any text without references) and C93: what columns and tables are built to
-/

namespace Sqlf.Props

open Spec

/-- The template refers to no argument, fragment or function. -/
def NoReferences (L : GoLib) (raw : Str) : Prop :=
  ∃ es, parse L raw = .ok es ∧ ∀ e ∈ es, ∃ t, e = .plain t

/-- **C01** Any text without NUL that refers to nothing is built to itself, trimmed, in every context and without
any effect: also with quotes, `$$` and `??` in it, all of which are copied. -/
theorem C01_without_references (L : GoLib) (raw : Str) (h0 : 0 ∉ raw) (h : NoReferences L raw) (ctx : Ctx) (s : St) :
    BuildsTo L ctx (.frag (.F raw)) s (.ok (trimSpace raw), s) := by
  obtain ⟨es, hp, ha⟩ := h
  refine buildsTo_iff.2 ⟨by simp, ?_⟩
  have := fragment_plain (L := L) (ctx := ctx) hp ha s
  rwa [plainText_eq h0 hp ha] at this

/-- A text with quotes, comments and doubled markers. -/
example (L : GoLib) : 0 ∉ lit "SELECT '?', \"$1\", a ?? b, '#join(' -- it's open ? #f" ∧
    NoReferences L (lit "SELECT '?', \"$1\", a ?? b, '#join(' -- it's open ? #f") :=
  ⟨by decide +kernel, (parse L (lit "SELECT '?', \"$1\", a ?? b, '#join(' -- it's open ? #f")).toOption.getD [], by kernel_rfl, fun e he =>
    (show ((parse L (lit "SELECT '?', \"$1\", a ?? b, '#join(' -- it's open ? #f")).toOption.getD []).all
      (fun e => match e with | .plain _ => true | _ => false) = true by kernel_rfl) |> fun h => by
        have := List.all_eq_true.1 h e he
        cases e <;> first | exact ⟨_, rfl⟩ | cases this⟩

/-- **C01** The condition is exact: a text that refers to something, or that does not parse, is not
built to itself by every context, whatever else it is built to; it does not even build in a context
without functions. -/
theorem C01_only_without_references (L : GoLib) (raw : Str) (h0 : 0 ∉ raw) :
    (∀ ctx s, BuildsTo L ctx (.frag (.F raw)) s (.ok (trimSpace raw), s)) ↔ NoReferences L raw := by
  refine ⟨fun h => ?_, fun h ctx s => C01_without_references L raw h0 h ctx s⟩
  obtain ⟨n, h⟩ := buildsTo_frag (h newEmptyContext (St.init question []))
  obtain ⟨es, body, s1, h1, h2, -⟩ := buildFragment_ok.1 h
  refine ⟨es, h1, fun e he => ?_⟩
  obtain ⟨s2, t2, s3, h3⟩ := buildClause_ok_mem h2 e he
  cases e with
  | plain t => exact ⟨t, rfl⟩
  | bindVar st i =>
    have := evalExpr_bindVar_ok (fr := ⟨(Fragment.F raw).args, (Fragment.F raw).frags⟩) rfl h3
    simp only [Fragment.F, Fragment.args, List.length_nil] at this
    omega
  | call name as =>
    have hf : (newEmptyContext.withFragment (Fragment.F raw)).fn name = none := rfl
    simp only [evalExpr, evalFunction, hf] at h3
    cases h3
  | func name =>
    simp only [evalExpr] at h3
    cases h3

/-- Texts on both sides: a doubled marker and a reference. -/
example (L : GoLib) : NoReferences L (lit "a ?? b") ∧ ¬ NoReferences L (lit "a ? b") := by
  refine ⟨⟨_, (by kernel_rfl : parse L (lit "a ?? b") = .ok [.plain (lit "a ?? b")]), by simp⟩, ?_⟩
  rintro ⟨es, h, ha⟩
  rw [(by kernel_rfl : parse L (lit "a ? b") =
    .ok [.plain (lit "a "), .bindVar question 1, .plain (lit " b")])] at h
  cases h
  obtain ⟨t, ht⟩ := ha (.bindVar question 1) (by simp)
  cases ht

/-- An identifier: bytes without a special meaning, or any text between `"` or `` ` ``. -/
inductive Identifier : Str → Prop
  | bare {s : Str} : s ≠ [] → (∀ b ∈ s, plainByte b = true) → Identifier s
  | quoted {q : UInt8} {s : Str} : q = 0x22 ∨ q = 0x60 → q ∉ s → 0 ∉ s → Identifier (q :: s ++ [q])

/-- `table.name`, or `name` alone if there is no table. -/
def qualified (table name : Str) : Str := if table = [] then name else table ++ lit "." ++ name

/-- An item that is a text. -/
private def isText : Item → Prop
  | .text _ => True
  | .quoted _ _ => True
  | _ => False

private theorem noRefs {L : GoLib} {is : List Item} (hw : WF is) (hi : ∀ i ∈ is, isText i) :
    NoReferences L (render is) := by
  have hm : ∀ is : List Item, (∀ i ∈ is, isText i) → ∃ es, meaning 0 false is = some es ∧ AllPlain es := by
    intro is hi
    induction is with
    | nil => exact ⟨[], rfl, by simp [AllPlain]⟩
    | cons i is ih =>
      obtain ⟨es, h1, h2⟩ := ih fun i h => hi i (List.mem_cons_of_mem _ h)
      have h3 := hi i List.mem_cons_self
      cases i <;> try exact h3.elim
      all_goals
        refine ⟨_, by simp [meaning, h1]; rfl, ?_⟩
        intro e he
        rcases List.mem_cons.1 he with rfl | he
        · exact ⟨_, rfl⟩
        · exact h2 e he
  obtain ⟨es, h1, h2⟩ := hm is hi
  obtain ⟨es', h3, h4⟩ := parse_render_some L hw h1
  exact ⟨es', h3, allPlain_glue.1 (h4 ▸ allPlain_glue.2 h2)⟩

private theorem plain_ne_zero {b : UInt8} (h : plainByte b = true) : b ≠ 0 := by
  rintro rfl
  exact absurd h (by decide)

private theorem Identifier.no_nul {s : Str} (h : Identifier s) : 0 ∉ s := by
  cases h with
  | bare _ h => exact fun h0 => plain_ne_zero (h 0 h0) rfl
  | quoted hq _ h =>
    simp only [List.mem_append, List.mem_cons, List.not_mem_nil, or_false, not_or]
    rcases hq with rfl | rfl <;> exact ⟨⟨by decide, h⟩, by decide⟩

private theorem Identifier.noRefs {L : GoLib} {s : Str} (h : Identifier s) : NoReferences L s := by
  cases h with
  | bare hne h =>
    have := Props.noRefs (L := L) (is := [.text s]) ⟨h, by simp [hne], trivial, trivial, trivial⟩ (by simp [isText])
    simpa [render, renderItem] using this
  | @quoted q s hq h h0 =>
    have := Props.noRefs (L := L) (is := [.quoted q s]) ⟨.inr ⟨hq, h, h0⟩, by simp, ?_, trivial, trivial⟩ (by simp [isText])
    · simpa [render, renderItem] using this
    · intro he; rcases hq with rfl | rfl <;> cases he

private theorem qualified_noRefs {L : GoLib} {t n : Str} (ht : Identifier t) (hn : Identifier n) :
    NoReferences L (t ++ lit "." ++ n) := by
  have hdot : ∀ b ∈ lit ".", plainByte b = true := by decide
  have hq : ∀ {q : UInt8} {s u : Str}, (q = 0x22 ∨ q = 0x60) → Follows (.quoted q s) u := by
    intro q s u hq he; rcases hq with rfl | rfl <;> cases he
  cases ht with
  | bare hne ht =>
    cases hn with
    | bare hne' hn =>
      refine Identifier.noRefs (.bare (by simp [hne]) ?_)
      simp only [List.mem_append]
      rintro b ((h | h) | h)
      · exact ht b h
      · exact hdot b h
      · exact hn b h
    | @quoted q s h1 h2 h3 =>
      have := Props.noRefs (L := L) (is := [.text (t ++ lit "."), .quoted q s])
        ⟨fun b hb => (List.mem_append.1 hb).elim (ht b) (hdot b), by simp [hne], trivial, trivial,
          .inr ⟨h1, h2, h3⟩, by simp, hq h1, trivial, trivial⟩ (by simp [isText])
      simpa [render, renderItem] using this
  | @quoted q s h1 h2 h3 =>
    cases hn with
    | bare hne' hn =>
      have := Props.noRefs (L := L) (is := [.quoted q s, .text (lit "." ++ n)])
        ⟨.inr ⟨h1, h2, h3⟩, by simp, hq h1, trivial, fun b hb => (List.mem_append.1 hb).elim (hdot b) (hn b), by simp [hne'],
          trivial, trivial, trivial⟩ (by simp [isText])
      simpa [render, renderItem] using this
    | @quoted q' s' h4 h5 h6 =>
      have := Props.noRefs (L := L) (is := [.quoted q s, .text (lit "."), .quoted q' s'])
        ⟨.inr ⟨h1, h2, h3⟩, by simp, hq h1, trivial, hdot, by decide, trivial, trivial,
          .inr ⟨h4, h5, h6⟩, by simp, hq h4, trivial, trivial⟩ (by simp [isText])
      simpa [render, renderItem] using this

/-- **C93** `Column(name)` of a table is built to `table.name` (to `name`, if the table has no name), in every context
and without any effect.  (`_partial`: for identifiers; `?`, `$` and `#` in an unquoted name are read as references,
see the counterexample.) -/
theorem C93_column_text_partial (L : GoLib) (table name : Str) (ht : table = [] ∨ Identifier table) (hn : Identifier name)
    (ctx : Ctx) (s : St) :
    BuildsTo L ctx (tableColumn table name) s (.ok (trimSpace (qualified table name)), s) := by
  have hne : name ≠ [] := by cases hn <;> simp_all
  have he : preBuildColumn table name = qualified table name := by
    unfold preBuildColumn qualified
    rw [if_neg hne]
  have h0 : 0 ∉ qualified table name ∧ NoReferences L (qualified table name) := by
    unfold qualified
    split
    · exact ⟨hn.no_nul, hn.noRefs⟩
    · rename_i h
      have ht := ht.resolve_left h
      refine ⟨?_, qualified_noRefs ht hn⟩
      simp only [List.mem_append, not_or]
      exact ⟨⟨ht.no_nul, by decide⟩, hn.no_nul⟩
  have := C01_without_references L _ h0.1 h0.2 ctx s
  rw [← he] at this
  rw [← he]
  exact buildsTo_iff.2 ((buildsTo_iff (b := .frag (.F _))).1 this)

/-- **C93** Exactly which columns these are: `Column(name)` is built to `table.name` in every context and without
any effect if and only if `table.name`, read as a template, refers to nothing. -/
theorem C93_column_text_exactly (L : GoLib) (table name : Str) (hne : name ≠ []) (h0 : 0 ∉ qualified table name) :
    (∀ ctx s, BuildsTo L ctx (tableColumn table name) s (.ok (trimSpace (qualified table name)), s)) ↔
      NoReferences L (qualified table name) := by
  have he : preBuildColumn table name = qualified table name := by
    unfold preBuildColumn qualified
    rw [if_neg hne]
  rw [← C01_only_without_references L _ h0, ← he]
  exact ⟨fun h ctx s => buildsTo_iff.2 ((buildsTo_iff (b := tableColumn table name)).1 (h ctx s)),
    fun h ctx s => buildsTo_iff.2 ((buildsTo_iff (b := .frag (.F _))).1 (h ctx s))⟩

/-- A column on either side. -/
example (L : GoLib) : NoReferences L (qualified (lit "t") (lit "id")) ∧ ¬ NoReferences L (qualified (lit "t") (lit "i$1")) := by
  refine ⟨⟨_, (by kernel_rfl : parse L (qualified (lit "t") (lit "id")) = .ok [.plain (lit "t.id")]), by simp⟩, ?_⟩
  rintro ⟨es, h, ha⟩
  rw [(by kernel_rfl : parse L (qualified (lit "t") (lit "i$1")) = .ok [.plain (lit "t.i"), .bindVar dollar 1])] at h
  cases h
  obtain ⟨t, ht⟩ := ha (.bindVar dollar 1) (by simp)
  cases ht

/-- **C93** `AnonymousColumn(name)` is built to `name`. -/
theorem C93_anonymous_column_text_partial (L : GoLib) (table name : Str) (hn : Identifier name) (ctx : Ctx) (s : St) :
    BuildsTo L ctx (tableAnonymousColumn table name) s (.ok (trimSpace name), s) :=
  buildsTo_iff.2 ((buildsTo_iff (b := .frag (.F _))).1 (C01_without_references L _ hn.no_nul hn.noRefs ctx s))

/-- **C93** Tables are built to their names, whatever these are: with an alias, to the alias. -/
theorem C93_table_text (L : GoLib) (name alias : Str) (ctx : Ctx) (s : St) :
    BuildsTo L ctx (.table name) s (.ok name, s) ∧
      BuildsTo L ctx (.aliased name alias) s (.ok (if alias = [] then name else alias), s) := by
  refine ⟨buildsTo_iff.2 ⟨by simp, .const _ _⟩, ?_⟩
  have : BuildsTo L ctx (.aliased name alias) s (.ok (TableAliased.appliedName ⟨name, alias⟩), s) :=
    buildsTo_iff.2 ⟨by simp, .const _ _⟩
  have he : TableAliased.appliedName ⟨name, alias⟩ = if alias = [] then name else alias := by
    unfold TableAliased.appliedName
    by_cases h : alias = [] <;> simp [h]
  rwa [he] at this

/-- **C93** Columns of an aliased table are those of the alias. -/
theorem C93_alias_column_text_partial (L : GoLib) (table alias name : Str) (ht : Identifier table) (ha : alias = [] ∨ Identifier alias)
    (hn : Identifier name) (ctx : Ctx) (s : St) :
    BuildsTo L ctx (TableAliased.column ⟨table, alias⟩ name) s
      (.ok (trimSpace ((if alias = [] then table else alias) ++ lit "." ++ name)), s) := by
  have hne : table ≠ [] := by cases ht <;> simp_all
  have he : TableAliased.appliedName ⟨table, alias⟩ = if alias = [] then table else alias := by
    unfold TableAliased.appliedName
    by_cases h : alias = [] <;> simp [h]
  unfold TableAliased.column
  rw [he]
  by_cases h : alias = []
  · rw [if_pos h]
    have := C93_column_text_partial L table name (.inr ht) hn ctx s
    rwa [qualified, if_neg hne] at this
  · rw [if_neg h]
    have := C93_column_text_partial L alias name ha hn ctx s
    rwa [qualified, if_neg h] at this

private theorem buildsAll_map {L : GoLib} {ctx : Ctx} {s : St} {b : Str → Builder} {t : Str → Str} {names : List Str}
    (h : ∀ n ∈ names, BuildsTo L ctx (b n) s (.ok (t n), s)) : BuildsAll L ctx (names.map b) s (names.map t) s := by
  induction names with
  | nil => exact .nil _
  | cons n names ih =>
    exact .cons (h n List.mem_cons_self) (ih fun n hn => h n (List.mem_cons_of_mem _ hn))

/-- **C93** `Columns(names...)` are the columns with these names, in order. -/
theorem C93_columns_texts_partial (L : GoLib) (table : Str) (names : List Str) (ht : table = [] ∨ Identifier table)
    (hn : ∀ n ∈ names, Identifier n) (ctx : Ctx) (s : St) :
    BuildsAll L ctx (tableColumns table names) s (names.map fun n => trimSpace (qualified table n)) s ∧
      BuildsAll L ctx (tableAnonymousColumns table names) s (names.map trimSpace) s :=
  ⟨buildsAll_map fun n h => C93_column_text_partial L table n ht (hn n h) ctx s,
    buildsAll_map fun n h => C93_anonymous_column_text_partial L table n (hn n h) ctx s⟩

/-- **C93** `Columns(names...)` of an aliased table are those of the alias, in order; its anonymous columns are built to
their names. -/
theorem C93_alias_columns_texts_partial (L : GoLib) (table alias : Str) (names : List Str) (ht : Identifier table)
    (ha : alias = [] ∨ Identifier alias) (hn : ∀ n ∈ names, Identifier n) (ctx : Ctx) (s : St) :
    BuildsAll L ctx (TableAliased.columns ⟨table, alias⟩ names) s
      (names.map fun n => trimSpace ((if alias = [] then table else alias) ++ lit "." ++ n)) s ∧
    BuildsAll L ctx (TableAliased.anonymousColumns ⟨table, alias⟩ names) s (names.map trimSpace) s ∧
    ∀ n ∈ names, BuildsTo L ctx (TableAliased.anonymousColumn ⟨table, alias⟩ n) s (.ok (trimSpace n), s) :=
  ⟨buildsAll_map fun n h => C93_alias_column_text_partial L table alias n ht ha (hn n h) ctx s,
    buildsAll_map fun n h => C93_anonymous_column_text_partial L _ n (hn n h) ctx s,
    fun n h => C93_anonymous_column_text_partial L _ n (hn n h) ctx s⟩

/-- **C93** `WithAlias(new)` of a table with any alias, or with none, is the table with the alias `new`: it is built to
`new` and its columns to `new.n`; to `table` and `table.n` if `new` is empty. -/
theorem C93_with_alias_partial (L : GoLib) (table old new : Str) (names : List Str) (ht : Identifier table)
    (ha : new = [] ∨ Identifier new) (hn : ∀ n ∈ names, Identifier n) (ctx : Ctx) (s : St) :
    let t := TableAliased.withAlias ⟨table, old⟩ new
    BuildsTo L ctx (.aliased t.name t.alias) s (.ok (if new = [] then table else new), s) ∧
    BuildsAll L ctx (t.columns names) s
      (names.map fun n => trimSpace ((if new = [] then table else new) ++ lit "." ++ n)) s ∧
    ∀ n ∈ names, BuildsTo L ctx (t.column n) s
      (.ok (trimSpace ((if new = [] then table else new) ++ lit "." ++ n)), s) :=
  ⟨(C93_table_text L table new ctx s).2, (C93_alias_columns_texts_partial L table new names ht ha hn ctx s).1,
    fun n h => C93_alias_column_text_partial L table new n ht ha (hn n h) ctx s⟩

/-- **C93** `ExprColumns(f1, ..., fn)` has a column for each fragment, in order, which is built as the fragment is: to the
same text or error, with the same effects; for a nil fragment, one that is built to nothing. -/
theorem C93_expression_columns (L : GoLib) (fs : List (Option Fragment)) :
    (exprColumns fs).length = fs.length ∧
    ∀ k : Nat, (∀ f, fs[k]? = some (some f) → ∃ c, (exprColumns fs)[k]? = some c ∧
        ∀ ctx s r, BuildsTo L ctx c s r ↔ BuildsTo L ctx (.frag f) s r) ∧
      (fs[k]? = some none → ∃ c, (exprColumns fs)[k]? = some c ∧ ∀ ctx s, BuildsTo L ctx c s (.ok [], s)) := by
  refine ⟨by simp [exprColumns], fun k => ⟨fun f hk => ⟨exprColumn (some f), by simp [exprColumns, hk], fun ctx s r => ?_⟩,
    fun hk => ⟨exprColumn none, by simp [exprColumns, hk], fun ctx s => buildsTo_iff.2 ⟨by simp, .const _ _⟩⟩⟩⟩
  rw [buildsTo_iff, buildsTo_iff]
  exact Iff.rfl

/-- The hypotheses are met by a table of which the alias is changed. -/
example : Identifier (lit "users") ∧ Identifier (lit "u") ∧ Identifier (lit "id") :=
  ⟨.bare (by decide) (by decide), .bare (by decide) (by decide), .bare (by decide) (by decide)⟩

/-- **C56** An expression that is a column of a table needs this table, under its alias if it has one, whether the
table is written in the column or not. -/
theorem C56_columns_need_their_table (cs : List Call) (table alias : Str) (ht : table ≠ []) (c : Builder)
    (names : List Str) (n : Str)
    (hc : c = TableAliased.column ⟨table, alias⟩ n ∨ c = TableAliased.anonymousColumn ⟨table, alias⟩ n ∨
      c ∈ TableAliased.columns ⟨table, alias⟩ names ∨ c ∈ TableAliased.anonymousColumns ⟨table, alias⟩ names)
    (he : c ∈ expressionsOf cs) : NeededBy cs (if alias = [] then table else alias) := by
  have ha : TableAliased.appliedName ⟨table, alias⟩ = if alias = [] then table else alias := by
    unfold TableAliased.appliedName
    by_cases h : alias = [] <;> simp [h]
  have hne : TableAliased.appliedName ⟨table, alias⟩ ≠ [] := by
    rw [ha]
    split
    · exact ht
    · assumption
  rw [← ha]
  refine .root (mem_tableRefsL.2 ⟨c, he, ?_⟩)
  have key : ∀ x, tableRefs (.column (TableAliased.appliedName ⟨table, alias⟩) (.F x)) = [TableAliased.appliedName ⟨table, alias⟩] := by
    intro x
    simp only [Fragment.F, tableRefs, if_neg hne]
  rcases hc with rfl | rfl | hc | hc
  · exact (key _).symm ▸ List.mem_singleton.2 rfl
  · exact (key _).symm ▸ List.mem_singleton.2 rfl
  · obtain ⟨x, -, rfl⟩ := List.mem_map.1 hc
    exact (key _).symm ▸ List.mem_singleton.2 rfl
  · obtain ⟨x, -, rfl⟩ := List.mem_map.1 hc
    exact (key _).symm ▸ List.mem_singleton.2 rfl

/-- An optional join that is kept because of an anonymous column of it. -/
example (L : GoLib) : ∃ b, runCalls QB.new [.distinct, .select (TableAliased.anonymousColumns ⟨lit "orders", lit "o"⟩ [lit "total"]),
      .from_ ⟨lit "users", lit "u"⟩, .leftJoinOptional ⟨lit "orders", lit "o"⟩ (some (.F (lit "o.u = u.id")))] = .ok b ∧
    Returns L (.qb 0) dollar [b] (.ok (lit "SELECT DISTINCT total FROM users AS u LEFT JOIN orders AS o ON o.u = u.id", [])) :=
  ⟨_, rfl, returns_of_buildQuery (n := 200) (by kernel_rfl) (by simp)⟩

private theorem buildsList_of_all {L : GoLib} {ctx : Ctx} {bs : List Builder} {s s1 s2 : St} {ts us : List Str}
    (h : BuildsAll L ctx bs s ts s1) (h' : BuildsList L ctx bs s us s2) : us = ts ∧ s2 = s1 := by
  induction h generalizing us s2 with
  | nil => cases h'; exact ⟨rfl, rfl⟩
  | @cons b bs s s3 s4 t ts hb hs ih =>
    cases h' with
    | cons h h' =>
      have := buildsTo_unique h hb
      simp only [Prod.mk.injEq, Out.ok.injEq] at this
      obtain ⟨rfl, rfl⟩ := this
      obtain ⟨rfl, rfl⟩ := ih h'
      exact ⟨rfl, rfl⟩
    | lost h ho =>
      have := buildsTo_unique h hb
      simp only [Prod.mk.injEq] at this
      rw [this.1] at ho
      cases ho

/-- **C93** A query that selects `Columns(names...)` of a table and builds has the SELECT clause
`SELECT table.name1, table.name2, …`. -/
theorem C93_select_list_partial (L : GoLib) (cs : List Call) (b : QB) (hm : Made L cs b) (heap : List QB) (r : Nat)
    (hr : heap[r]? = some b) (style : Style) (q : Str) (as : List Val) (h : Returns L (.qb r) style heap (.ok (q, as)))
    (table : Str) (names : List Str) (ht : table = [] ∨ Identifier table) (hn : ∀ n ∈ names, Identifier n)
    (hs : selectedBy cs = tableColumns table names) :
    ∃ ctx ctes rows touches p s', newContext L = some ctx ∧
      QueryBuilt L ctx cs ctes rows touches (St.init style heap) p s' ∧ q = p.text ∧
      p.select = names.map fun n => trimSpace (qualified table n) := by
  obtain ⟨ctx, ctes, rows, touches, p, s', h1, h2, h3, -⟩ := C53_clauses_in_order L cs b hm heap r hr style q as h
  refine ⟨ctx, ctes, rows, touches, p, s', h1, h2, h3, ?_⟩
  cases h2
  rename_i hselect _ _ _
  rw [hs] at hselect
  exact (buildsList_of_all (C93_columns_texts_partial L table names ht hn ctx _).1 hselect).1

/-- Identifiers. -/
example : Identifier (lit "users") ∧ Identifier (lit "\"what?\"") ∧ Identifier (lit "`a#b$1`") :=
  ⟨.bare (by decide) (by decide), .quoted (q := 0x22) (s := lit "what?") (.inl rfl) (by decide) (by decide),
    .quoted (q := 0x60) (s := lit "a#b$1") (.inr rfl) (by decide) (by decide)⟩

/-- A query with such columns. -/
example (L : GoLib) : ∃ b, runCalls QB.new [.select (tableColumns (lit "u") [lit "id", lit "\"what?\""]), .from_ ⟨lit "users", lit "u"⟩] = .ok b ∧
    Returns L (.qb 0) dollar [b] (.ok (lit "SELECT u.id, u.\"what?\" FROM users AS u", [])) :=
  ⟨_, rfl, returns_of_buildQuery (n := 200) (by kernel_rfl) (by simp)⟩

/-- An unquoted name with a `?`: the column cannot be built. -/
theorem C93_marker_in_name_counterexample (L : GoLib) : ∃ e,
    Returns L (tableColumn (lit "t") (lit "a?")) dollar [] (.err e) :=
  ⟨.wrap (lit "t.a?") (.bindVarIndex 1), returns_of_buildQuery (n := 200) (by kernel_rfl) (by simp)⟩

end Sqlf.Props
