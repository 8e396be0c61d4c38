import Verif.Proofs.QueryCalls
import Verif.Props.Query
import Verif.Proofs.GoEqual
import Verif.KernelRfl
/-!
# C76–C80: what queries of query builders are

`queryMeaning L style heap depth r` (`Verif.Spec.QueryDoc`): the specified outcome of the query builder at `r` and
the committed values; `builderMeaning`: those of a builder with query builders in it.
-/

namespace Sqlf.Props

open Spec

/-! ## A query builder with others in it -/

/-- The calls of a query with the full query (`fullQB`, at 0) as CTE, as subquery in WHERE and in a union. -/
def outerCalls : List Call :=
  [.with_ (lit "w") (.qb 0) [], .from_ ⟨lit "w", []⟩,
   .select [tableColumn (lit "w") (lit "id")],
   .where_ (some (.mk (lit "w.id IN (#f1) AND w.x = ?") [.int 64 18] [.qb 0] [] [])),
   .union [.qb 0]]

def outerQB : QB := match runCalls QB.new outerCalls with | .ok b => b | _ => QB.new

/-- The text of the full query in the Question style. -/
def fullText : Str := lit ("With c AS (SELECT 1) " ++
  "SELECT u.id, u.name FROM users AS u LEFT JOIN c ON c.id = ? WHERE u.age > ? AND u.group IN (?, ?) " ++
  "GROUP BY u.id ORDER BY u.id DESC LIMIT 10 OFFSET 20 UNION (SELECT 2)")

/-- … and in the Dollar style. -/
def fullDollar : Str := lit ("With c AS (SELECT 1) " ++
  "SELECT u.id, u.name FROM users AS u LEFT JOIN c ON c.id = $1 WHERE u.age > $2 AND u.group IN ($3, $4) " ++
  "GROUP BY u.id ORDER BY u.id DESC LIMIT 10 OFFSET 20 UNION (SELECT 2)")

theorem fullQB_nestable (L : GoLib) : Nestable L fullQB :=
  ⟨_, fullQB_made L, ⟨by decide +kernel, by decide +kernel⟩, by decide +kernel, noCodeL_check _ (by decide +kernel)⟩

theorem fullQB_nested (L : GoLib) : NestedIn (Nestable L) [fullQB, outerQB] 1 0 :=
  ⟨fullQB, rfl, fullQB_nestable L, by
    rw [show qbRefsL (partsOf fullQB) = [] by decide +kernel]
    intro r hr; cases hr⟩

theorem outerQB_at (L : GoLib) : QueryAt L [fullQB, outerQB] 1 1 :=
  ⟨outerQB, outerCalls, rfl, made_of_calls (by rfl), by decide +kernel, noCodeL_check _ (by decide +kernel), by
    rw [show qbRefsL (partsOf outerQB) = [0, 0, 0] by decide +kernel]
    intro r hr
    simp only [List.mem_cons, List.not_mem_nil, or_false, or_self] at hr
    subst hr
    exact fullQB_nested L⟩

/-! ## C76 -/

/-- **C76** `BuildQuery` of a query builder returns exactly what is specified: the document made of the documents
of its parts (`Request.sem`, `DocParts.doc`), with the placeholders of the argument store in its marks; the values
committed in the order CTEs, FROM, WHERE, GROUP BY, ORDER BY, SELECT, UNION; errors and panics exactly as
specified. -/
theorem C76_query_is_specified (L : GoLib) (heap : List QB) (depth r : Nat) (h : QueryAt L heap depth r)
    (style : Style) :
    match queryMeaning L style heap depth r with
    | (.ok d, vs) => ∃ ps st, commitAll (Store.new style) vs = some (ps, st) ∧
        Returns L (.qb r) style heap (.ok (renderDoc ps d, st.args))
    | (.invalidIndex, _) => ∃ e, Returns L (.qb r) style heap (.err e) ∧ e.isInvalidIndex = true
    | (.error, _) => ∃ e, Returns L (.qb r) style heap (.err e) ∧ e.isInvalidIndex = false
    | (.panic, _) => ∃ p, Returns L (.qb r) style heap (.panic p) := by
  have hm := outMatches_cases (returns_query h style)
  rcases he : queryMeaning L style heap depth r with ⟨o, vs⟩
  rw [he] at hm
  cases o with
  | ok d => obtain ⟨ps, st, h1, -, h2⟩ := hm; exact ⟨ps, st, h1, h2⟩
  | _ => exact hm

example (L : GoLib) : QueryAt L [fullQB, outerQB] 1 1 ∧
    (queryMeaning L question [fullQB, outerQB] 1 1).2 = [.int 64 7, .int 64 18, .int 64 1, .int 64 2,
      .int 64 7, .int 64 18, .int 64 1, .int 64 2, .int 64 18, .int 64 7, .int 64 18, .int 64 1, .int 64 2] ∧
    Returns L (.qb 1) question [fullQB, outerQB] (.ok (lit "With w AS (" ++ fullText ++ lit ") SELECT w.id FROM w WHERE w.id IN ("
      ++ fullText ++ lit ") AND w.x = ? UNION (" ++ fullText ++ lit ")",
      [.int 64 7, .int 64 18, .int 64 1, .int 64 2,
      .int 64 7, .int 64 18, .int 64 1, .int 64 2, .int 64 18, .int 64 7, .int 64 18, .int 64 1, .int 64 2])) ∧
    Returns L (.qb 1) dollar [fullQB, outerQB] (.ok (lit "With w AS (" ++ fullDollar ++ lit ") SELECT w.id FROM w WHERE w.id IN ("
      ++ fullDollar ++ lit ") AND w.x = $2 UNION (" ++ fullDollar ++ lit ")",
      [.int 64 7, .int 64 18, .int 64 1, .int 64 2])) :=
  ⟨outerQB_at L, by kernel_rfl, returns_of_buildQuery (n := 200) (by kernel_rfl) (by simp),
    returns_of_buildQuery (n := 200) (by kernel_rfl) (by simp)⟩

/-! ## C77 -/

/-- **C77** The same for any builder with query builders in it: each is built as specified at every place where it
is used. -/
theorem C77_subqueries_are_specified (L : GoLib) (heap : List QB) (depth : Nat) (b : Builder) (hc : NoCode b)
    (h : ∀ r ∈ qbRefs b, NestedIn (Nestable L) heap depth r) (style : Style) :
    match builderMeaning L style heap depth b with
    | (.ok d, vs) => ∃ ps st, commitAll (Store.new style) vs = some (ps, st) ∧
        Returns L b style heap (.ok (renderDoc ps d, st.args))
    | (.invalidIndex, _) => ∃ e, Returns L b style heap (.err e) ∧ e.isInvalidIndex = true
    | (.error, _) => ∃ e, Returns L b style heap (.err e) ∧ e.isInvalidIndex = false
    | (.panic, _) => ∃ p, Returns L b style heap (.panic p) := by
  have hm := outMatches_cases (returns_builder hc h style)
  rcases he : builderMeaning L style heap depth b with ⟨o, vs⟩
  rw [he] at hm
  cases o with
  | ok d => obtain ⟨ps, st, h1, -, h2⟩ := hm; exact ⟨ps, st, h1, h2⟩
  | _ => exact hm

def existsTree : Builder := .frag (.mk (lit "? = ALL (#f1) OR EXISTS (#f1)") [.int 64 7] [.qb 0] [] [])

example (L : GoLib) : NoCode existsTree ∧ (∀ r ∈ qbRefs existsTree, NestedIn (Nestable L) [fullQB, outerQB] 1 r) ∧
    Returns L existsTree dollar [fullQB, outerQB] (.ok (lit "$1 = ALL (" ++ fullDollar ++ lit ") OR EXISTS (" ++ fullDollar ++ lit ")",
      [.int 64 7, .int 64 18, .int 64 1, .int 64 2])) :=
  ⟨noCode_check _ (by decide +kernel), by
    rw [show qbRefs existsTree = [0] by decide +kernel]
    intro r hr
    cases List.mem_singleton.1 hr
    exact fullQB_nested L, returns_of_buildQuery (n := 200) (by kernel_rfl) (by simp)⟩

/-! ## C78 -/

/-- **C78** In the Dollar style the query of a query builder is the specified document, and every mark of it is
written as `$n` with `1 ≤ n ≤ len(args)`, where the `n`-th argument is the value the mark stands for, or equal to
it in Go. -/
theorem C78_query_dollar_placeholders_resolve (L : GoLib) (heap : List QB) (depth r : Nat)
    (h : QueryAt L heap depth r) (q : Str) (as : List Val) (hr : Returns L (.qb r) dollar heap (.ok (q, as))) :
    ∃ d vs ps, queryMeaning L dollar heap depth r = (.ok d, vs) ∧ q = renderDoc ps d ∧
      ∀ k ∈ binds d, ∃ n v w, ps[k]? = some (dollarMark n) ∧ 1 ≤ n ∧ n ≤ as.length ∧
        vs[k]? = some v ∧ as[n - 1]? = some w ∧ (w = v ∨ GoEqual w v) := by
  simp only [goEqual_iff]
  obtain ⟨d, log, ps, st, h1, h2, h3, h4, rfl⟩ := outMatches_ok (returns_query h dollar) hr
  refine ⟨d, log, ps, h1, h4, fun k hk => ?_⟩
  have hlt := h3 k hk
  rw [commitAll_length h2] at hlt
  obtain ⟨j, w, hp, hw, he⟩ := commitAll_resolve (Store.new_inv dollar) rfl h2 k log[k] (by simp [hlt])
  refine ⟨j + 1, log[k], w, hp, by omega, ?_, by simp [hlt], by simpa using hw, he⟩
  have := (List.getElem?_eq_some_iff.1 hw).1
  omega

example (L : GoLib) : QueryAt L [fullQB, outerQB] 1 1 ∧ ∃ d, (queryMeaning L dollar [fullQB, outerQB] 1 1).1 = .ok d ∧
    binds d = [0, 1, 2, 3, 4, 5, 6, 7, 8, 9, 10, 11, 12] := by
  refine ⟨outerQB_at L, ?_⟩
  have h : (match (queryMeaning L dollar [fullQB, outerQB] 1 1).1 with | .ok d => binds d | _ => []) =
      [0, 1, 2, 3, 4, 5, 6, 7, 8, 9, 10, 11, 12] := by kernel_rfl
  revert h
  cases (queryMeaning L dollar [fullQB, outerQB] 1 1).1 with
  | ok d => exact fun h => ⟨d, rfl, h⟩
  | _ => intro h; cases h

/-! ## C79 -/

private theorem query_text (L : GoLib) (R : Val → Val → Prop) (heap heap' : List QB)
    (hs : Pointwise (ButForValues R) heap heap') (depth r : Nat) (h : QueryAt L heap depth r) (style : Style)
    (hR : style = dollar → Compat R) (q : Str) (as : List Val) (hr : Returns L (.qb r) style heap (.ok (q, as))) :
    ∃ as', Returns L (.qb r) style heap' (.ok (q, as')) ∧ Pointwise R as as' := by
  have hbad : ∀ v w, R v w → cannotCommit style v = cannotCommit style w := by
    intro v w hvw
    unfold cannotCommit
    by_cases hd : style = dollar
    · simp [hd, (hR hd).hash v w hvw]
    · simp [hd]
  exact same_text_of hR (returns_query h style) (returns_query (queryAt_same L hs depth r h) style)
    (queryMeaning_rel L hbad hs depth r) hr

/-- **C79** (Question) Giving other argument values in the calls that make the query builders leaves the text of
the query unchanged; the arguments are the other values. -/
theorem C79_query_values_never_in_text_question (L : GoLib) (R : Val → Val → Prop) (heap heap' : List QB)
    (hs : Pointwise (ButForValues R) heap heap') (depth r : Nat) (h : QueryAt L heap depth r) (q : Str) (as : List Val)
    (hr : Returns L (.qb r) question heap (.ok (q, as))) :
    ∃ as', Returns L (.qb r) question heap' (.ok (q, as')) ∧ Pointwise R as as' :=
  query_text L R heap heap' hs depth r h question (fun h => absurd h (by decide)) q as hr

/-- **C79** (Dollar) The same for other values with the same equality pattern. -/
theorem C79_query_values_never_in_text_dollar (L : GoLib) (R : Val → Val → Prop) (hR : Compat R) (heap heap' : List QB)
    (hs : Pointwise (ButForValues R) heap heap') (depth r : Nat) (h : QueryAt L heap depth r) (q : Str) (as : List Val)
    (hr : Returns L (.qb r) dollar heap (.ok (q, as))) :
    ∃ as', Returns L (.qb r) dollar heap' (.ok (q, as')) ∧ Pointwise R as as' :=
  query_text L R heap heap' hs depth r h dollar (fun _ => hR) q as hr

/-- The calls of `fullQB` with hostile values. -/
def hostileCalls : List Call :=
  [.offset 20, .limit 10, .union [.frag (.F (lit "SELECT 2"))],
   .orderBy (tableColumn (lit "u") (lit "id")) 3,
   .with_ (lit "c") (.frag (.F (lit "SELECT 1"))) [],
   .where2 (tableColumn (lit "u") (lit "age")) (lit " > ") (.str 0 (lit "'; DROP TABLE t; -- ? $1 #f1")),
   .leftJoinOptional ⟨lit "c", []⟩ (some (.Fa (lit "c.id = ?") [.nil])),
   .from_ ⟨lit "users", lit "u"⟩,
   .whereIn (tableColumn (lit "u") (lit "group")) (.slice 9 [.str 0 (lit ") OR (1 = 1"), .str 0 []]),
   .groupBy [tableColumn (lit "u") (lit "id")],
   .select [tableColumn (lit "u") (lit "id"), tableColumn (lit "u") (lit "name")]]

def hostileQB : QB := match runCalls QB.new hostileCalls with | .ok b => b | _ => QB.new

example : Pointwise (ButForValues fun _ _ => True) [fullQB, outerQB] [hostileQB, outerQB] := by
  refine .cons ⟨fullCalls, hostileCalls, by rfl, by rfl, ?_⟩ (.cons ?_ .nil)
  · have hs : ∀ b, noCodeCheck b = true → SameQ (fun _ _ => True) b b := fun b hb =>
      sameQ_self (P := fun _ => True) (fun _ _ => trivial) b (noCode_check b hb) (allVals_true b)
    refine .cons rfl (.cons rfl (.cons (sameQL_one.2 (hs _ (by decide +kernel)))
      (.cons ⟨hs _ (by decide +kernel), rfl⟩ (.cons ⟨rfl, hs _ (by decide +kernel), rfl⟩
      (.cons ⟨hs _ (by decide +kernel), rfl, trivial⟩ (.cons ⟨rfl, ?_⟩ (.cons rfl
      (.cons ⟨hs _ (by decide +kernel), _, _, rfl, rfl, .cons trivial (.cons trivial .nil)⟩
      (.cons (sameQL_one.2 (hs _ (by decide +kernel))) (.cons ?_ .nil))))))))))
    · simp only [SameOpt, SameQF, Fragment.Fa]
      exact ⟨trivial, .cons trivial .nil, by simp [SameQL], trivial, trivial⟩
    · simp only [SameCall, SameQL, and_true]
      exact ⟨hs _ (by decide +kernel), hs _ (by decide +kernel)⟩
  · refine butForValues_self (P := fun _ => True) (fun _ _ => trivial) (cs := outerCalls) (by rfl) ?_
    have ho : ∀ b, noCodeCheck b = true → Over (fun _ => True) b := fun b hb => ⟨noCode_check b hb, allVals_true b⟩
    intro c hc
    simp only [outerCalls, List.mem_cons, List.not_mem_nil, or_false] at hc
    rcases hc with rfl | rfl | rfl | rfl | rfl
    · exact ho _ (by decide +kernel)
    · trivial
    · intro c hc; cases List.mem_singleton.1 hc; exact ho _ (by decide +kernel)
    · intro g hg; cases hg; exact ho _ (by decide +kernel)
    · intro c hc; cases List.mem_singleton.1 hc; exact ho _ (by decide +kernel)

/-! ## C80 -/

/-- **C80** (`_partial`: values that cannot be map keys are excluded, see `C80_styles_differ_counterexample`) If all
argument values given in the calls that make the query builders can be map keys, the builds in the two styles have
the same outcome: the same kind of failure, or queries that are the same document `d` written with `?` and with
`$n`, where the `$n` in place of the `k`-th committed value refers to an argument equal to it. -/
theorem C80_query_styles_agree_partial (L : GoLib) (heap : List QB) (depth r : Nat) (h : QueryAt L heap depth r)
    (hv : ∀ b ∈ heap, ∃ cs, runCalls QB.new cs = .ok b ∧ ∀ c ∈ cs, CallOver (fun v => ¬ Unhashable v) c) :
    (∃ d vs ps as, Returns L (.qb r) question heap (.ok (renderDoc (List.replicate vs.length (lit "?")) d, vs)) ∧
      Returns L (.qb r) dollar heap (.ok (renderDoc ps d, as)) ∧
      ∀ k ∈ binds d, ∃ n v w, ps[k]? = some (dollarMark n) ∧ vs[k]? = some v ∧
        1 ≤ n ∧ as[n - 1]? = some w ∧ (w = v ∨ GoEqual w v)) ∨
    (∃ e e', Returns L (.qb r) question heap (.err e) ∧ Returns L (.qb r) dollar heap (.err e') ∧
      e.isInvalidIndex = e'.isInvalidIndex) ∨
    (∃ p p', Returns L (.qb r) question heap (.panic p) ∧ Returns L (.qb r) dollar heap (.panic p')) := by
  simp only [goEqual_iff]
  rw [not_unhashable_fun] at hv
  refine styles_agree_of (returns_query h question) (returns_query h dollar) (queryMeaning_rel L ?_ ?_ depth r)
  · rintro v w ⟨rfl, h⟩
    have : ¬ question = dollar := by decide
    simp [cannotCommit, h, this]
  · refine Spec.Pointwise.refl fun b hb => ?_
    obtain ⟨cs, h1, h2⟩ := hv b hb
    exact butForValues_self (fun v hv => ⟨rfl, hv⟩) h1 h2

example : ∀ b ∈ [fullQB, outerQB], ∃ cs, runCalls QB.new cs = .ok b ∧ ∀ c ∈ cs, CallOver (fun v => ¬ Unhashable v) c := by
  rw [not_unhashable_fun]
  intro b hb
  simp only [List.mem_cons, List.not_mem_nil, or_false] at hb
  rcases hb with rfl | rfl
  · exact ⟨fullCalls, by rfl, calls_check (by decide +kernel)⟩
  · exact ⟨outerCalls, by rfl, calls_check (by decide +kernel)⟩

def bytesCalls : List Call :=
  [.from_ ⟨lit "t", []⟩, .select [exprColumn (some (.F (lit "1")))],
   .where2 (exprColumn (some (.F (lit "b")))) (lit " = ") (.slice 9 [.uint 8 0x61])]

def bytesQB : QB := match runCalls QB.new bytesCalls with | .ok b => b | _ => QB.new

/-- The full C80 fails: a condition on a `[]byte` value builds in the Question style only. -/
theorem C80_styles_differ_counterexample (L : GoLib) :
    Returns L (.qb 0) question [bytesQB] (.ok (lit "SELECT 1 FROM t WHERE b = ?", [.slice 9 [.uint 8 0x61]])) ∧
    Returns L (.qb 0) dollar [bytesQB] (.err (.wrap (lit "#join('#fragment', ' AND ')")
      (.wrap (lit "join") (.wrap (lit "fragment") (.recovered .unhashableKey))))) :=
  ⟨returns_of_buildQuery (n := 200) (by kernel_rfl) (by simp),
   returns_of_buildQuery (n := 200) (by kernel_rfl) (by simp)⟩

end Sqlf.Props
