import Verif.Proofs.QueryTidy
import Verif.Props.QueryDoc
/-!
# C54, C81: placeholders and arguments of query builders
-/

namespace Sqlf.Props

open Spec

private theorem question_marks {E : List Nat → List Nat → Prop} [MarkRel E] (L : GoLib) {P : (Builder → Sem) → QB → Prop}
    (hP : ∀ child b, P child b → TidyQB L child b ∧ (ArgsInOrder child b ∨ ∀ x y, E (x ++ y) (y ++ x)))
    (heap : List QB) (depth r : Nat) (h : QueryAt L heap depth r) (ht : Throughout L question P heap (depth + 1) r)
    (q : Str) (as : List Val) (hr : Returns L (.qb r) question heap (.ok (q, as))) :
    ∃ d, queryMeaning L question heap depth r = (.ok d, as) ∧ E (binds d) (List.range as.length) ∧
      q = renderDoc (List.replicate as.length (lit "?")) d := by
  obtain ⟨d, log, ps, st, h1, h2, -, rfl, rfl⟩ := outMatches_ok (returns_query h question) hr
  rw [commitAll_question _ _ rfl] at h2
  cases h2
  refine ⟨d, h1, ?_, rfl⟩
  obtain ⟨δ, h4, h5⟩ := heapSem_clean (E := E) hP (depth + 1) r ht []
  unfold queryMeaning at h1
  rw [h1] at h4 h5
  simp only [List.nil_append] at h4
  subst h4
  have := h5 d rfl
  rw [List.range_eq_range']
  exact this

/-- **C54** In the Question style the marks of the query of a query builder are, in order, the first, the second, …
argument, each is written `?`, and there are no other arguments.  (`_partial`: if in it, and in those nested in it,
either what is selected commits no values or FROM, WHERE, GROUP BY and ORDER BY commit none, see
`C54_select_args_counterexample`; and if no `#join` commits values and then drops the item, see
`C20_join_leak_counterexample`.) -/
theorem C54_query_question_args_in_order_partial (L : GoLib) (heap : List QB) (depth r : Nat) (h : QueryAt L heap depth r)
    (ht : Throughout L question (fun child b => TidyQB L child b ∧ ArgsInOrder child b) heap (depth + 1) r)
    (q : Str) (as : List Val) (hr : Returns L (.qb r) question heap (.ok (q, as))) :
    ∃ d, queryMeaning L question heap depth r = (.ok d, as) ∧ binds d = List.range as.length ∧
      q = renderDoc (List.replicate as.length (lit "?")) d :=
  question_marks L (fun _ _ h => ⟨h.1, .inl h.2⟩) heap depth r h ht q as hr

/-- The sample meets the hypotheses. -/
example (L : GoLib) : QueryAt L [fullQB, outerQB] 1 1 ∧
    Throughout L question (fun child b => TidyQB L child b ∧ ArgsInOrder child b) [fullQB, outerQB] 2 1 := by
  refine ⟨outerQB_at L, outerQB, rfl, ⟨tidyQL_check _ fun log => by kernel_rfl, .inl (nothing_check fun log => by kernel_rfl)⟩, ?_⟩
  rw [show qbRefsL (partsOf outerQB) = [0, 0, 0] by decide +kernel]
  intro r hr
  simp only [List.mem_cons, List.not_mem_nil, or_false, or_self] at hr
  subst hr
  refine ⟨fullQB, rfl, ⟨tidyQL_check _ fun log => by kernel_rfl, .inl (nothing_check fun log => by kernel_rfl)⟩, ?_⟩
  rw [show qbRefsL (partsOf fullQB) = [] by decide +kernel]
  intro r hr; cases hr

/-- A query with an argument in SELECT and one in WHERE. -/
def selectArgCalls : List Call :=
  [.from_ ⟨lit "t", []⟩, .select [exprColumn (some (.mk (lit "? AS a") [.str 0 (lit "select")] [] [] []))],
   .where_ (some (.mk (lit "b = ?") [.str 0 (lit "where")] [] [] []))]

def selectArgQB : QB := match runCalls QB.new selectArgCalls with | .ok b => b | _ => QB.new

/-- **C54** Which argument every placeholder gets, whatever SELECT commits: clause by clause, in the order CTEs, FROM, WHERE,
GROUP BY, ORDER BY, SELECT, UNION, the marks are the first, the second, … argument.  (`_partial`: this is not the order of
the text; and as above for `#join`, and for the query builders nested in this one.) -/
theorem C54_order_of_arguments_partial (L : GoLib) (heap : List QB) (depth r : Nat) (h : QueryAt L heap depth r)
    (b : QB) (child : Builder → Sem) (hb : heap[r]? = some b)
    (hc : child = semQ L (fun s => (parse L s).toOption) (cannotCommit question)
      (heapSem L (fun s => (parse L s).toOption) (cannotCommit question) heap depth))
    (ht : TidyQB L child b)
    (hn : ∀ r' ∈ qbRefsL (partsOf b),
      Throughout L question (fun child b => TidyQB L child b ∧ ArgsInOrder child b) heap depth r')
    (q : Str) (as : List Val) (hr : Returns L (.qb r) question heap (.ok (q, as))) :
    ∃ deps p, b.collectDependencies = .ok deps ∧ BuiltParts child (requestOf b deps) p as ∧
      p.marks = List.range as.length ∧ q = renderDoc (List.replicate as.length (lit "?")) p.doc := by
  subst hc
  obtain ⟨d, log, ps, st, h1, h2, -, rfl, rfl⟩ := outMatches_ok (returns_query h question) hr
  rw [commitAll_question _ _ rfl] at h2
  cases h2
  have hq : qbSem (semQ L (fun s => (parse L s).toOption) (cannotCommit question)
      (heapSem L (fun s => (parse L s).toOption) (cannotCommit question) heap depth)) b [] = (.ok d, log) := by
    unfold queryMeaning heapSem at h1
    rwa [hb] at h1
  unfold qbSem at hq
  by_cases he : b.errors ≠ []
  · rw [if_pos he] at hq; cases hq
  · rw [if_neg he] at hq
    cases hd : b.collectDependencies with
    | ok deps =>
      rw [hd] at hq
      have hp := requestOf_clean (E := Eq) ht (fun r' hr' => heapSem_clean (fun _ _ h => ⟨h.1, .inl h.2⟩) depth r' (hn r' hr')) deps
      obtain ⟨p, rfl, h3, h4⟩ := hp.marks hq
      exact ⟨deps, p, rfl, h3, h4, rfl⟩
    | err e => rw [hd] at hq; cases hq
    | panic e => rw [hd] at hq; cases hq
    | oof => rw [hd] at hq; cases hq

/-- The full C54 fails: the first placeholder, in SELECT, gets the value of WHERE. -/
theorem C54_select_args_counterexample (L : GoLib) :
    QueryAt L [selectArgQB] 0 0 ∧
    Throughout L question (TidyQB L) [selectArgQB] 1 0 ∧
    Returns L (.qb 0) question [selectArgQB] (.ok (lit "SELECT ? AS a FROM t WHERE b = ?",
      [.str 0 (lit "where"), .str 0 (lit "select")])) ∧
    ∃ d, (queryMeaning L question [selectArgQB] 0 0).1 = .ok d ∧ binds d = [1, 0] := by
  have hn : qbRefsL (partsOf selectArgQB) = [] := by decide +kernel
  refine ⟨⟨selectArgQB, selectArgCalls, rfl, made_of_calls (by rfl), by decide +kernel, noCodeL_check _ (by decide +kernel), ?_⟩,
    ⟨selectArgQB, rfl, tidyQL_check _ fun log => by kernel_rfl, ?_⟩,
    returns_of_buildQuery (n := 200) (by kernel_rfl) (by simp), ?_⟩
  · rw [hn]; intro r hr; cases hr
  · rw [hn]; intro r hr; cases hr
  · have h : (match (queryMeaning L question [selectArgQB] 0 0).1 with | .ok d => binds d | _ => []) = [1, 0] := by kernel_rfl
    revert h
    cases (queryMeaning L question [selectArgQB] 0 0).1 with
    | ok d => exact fun h => ⟨d, rfl, h⟩
    | _ => intro h; cases h

/-- The query of the counterexample meets the hypotheses of `C54_order_of_arguments_partial`. -/
example (L : GoLib) : QueryAt L [selectArgQB] 0 0 ∧
    TidyQB L (semQ L (fun s => (parse L s).toOption) (cannotCommit question)
      (heapSem L (fun s => (parse L s).toOption) (cannotCommit question) [selectArgQB] 0)) selectArgQB ∧
    qbRefsL (partsOf selectArgQB) = [] := by
  obtain ⟨h, ⟨b, hb, ht, -⟩, -⟩ := C54_select_args_counterexample L
  cases hb
  exact ⟨h, ht, by decide +kernel⟩

/-! ## C81 -/

/-- **C81** (Question) In the query of a query builder every argument has exactly one placeholder, and every placeholder an
argument: the marks are a permutation of the arguments.  (`_partial`: if no `#join` commits values and then drops the
item, see `C81_join_leak_counterexample`.) -/
theorem C81_query_question_one_to_one_partial (L : GoLib) (heap : List QB) (depth r : Nat) (h : QueryAt L heap depth r)
    (ht : Throughout L question (TidyQB L) heap (depth + 1) r)
    (q : Str) (as : List Val) (hr : Returns L (.qb r) question heap (.ok (q, as))) :
    ∃ d, queryMeaning L question heap depth r = (.ok d, as) ∧ (binds d).Perm (List.range as.length) ∧
      q = renderDoc (List.replicate as.length (lit "?")) d :=
  question_marks L (fun _ _ h => ⟨h, .inr fun _ _ => List.perm_append_comm⟩) heap depth r h ht q as hr

/-- **C81** (Dollar) In the query of a query builder every argument has a placeholder.  (`_partial`: as above.) -/
theorem C81_query_no_argument_without_placeholder_partial (L : GoLib) (heap : List QB) (depth r : Nat)
    (h : QueryAt L heap depth r) (ht : Throughout L dollar (TidyQB L) heap (depth + 1) r)
    (q : Str) (as : List Val) (hr : Returns L (.qb r) dollar heap (.ok (q, as))) :
    ∃ d vs ps, queryMeaning L dollar heap depth r = (.ok d, vs) ∧ q = renderDoc ps d ∧
      ∀ n, 1 ≤ n → n ≤ as.length → ∃ k ∈ binds d, ps[k]? = some (dollarMark n) := by
  obtain ⟨d, log, ps, st, h1, h2, -, rfl, rfl⟩ := outMatches_ok (returns_query h dollar) hr
  refine ⟨d, log, ps, h1, rfl, fun n hn1 hn2 => ?_⟩
  obtain ⟨δ, h4, h5⟩ := heapSem_clean (E := List.Perm) (P := TidyQB L)
    (fun _ _ h => ⟨h, .inr fun _ _ => List.perm_append_comm⟩) (depth + 1) r ht []
  unfold queryMeaning at h1
  rw [h1] at h4 h5
  simp only [List.nil_append] at h4
  subst h4
  obtain ⟨k, hk⟩ := commitAll_covers rfl (Store.new_inv dollar) h2 n (by simp [Store.new]; omega) hn2
  refine ⟨k, ?_, hk⟩
  rw [(h5 d rfl).mem_iff, List.mem_range']
  have := (List.getElem?_eq_some_iff.1 hk).1
  rw [commitAll_length h2] at this
  exact ⟨k, this, by simp⟩

/-- The sample meets the hypotheses, and so does the counterexample to C54. -/
example (L : GoLib) : QueryAt L [fullQB, outerQB] 1 1 ∧ Throughout L dollar (TidyQB L) [fullQB, outerQB] 2 1 ∧
    Throughout L question (TidyQB L) [fullQB, outerQB] 2 1 := by
  refine ⟨outerQB_at L, ⟨outerQB, rfl, tidyQL_check _ fun log => by kernel_rfl, ?_⟩, ⟨outerQB, rfl, tidyQL_check _ fun log => by kernel_rfl, ?_⟩⟩ <;>
    rw [show qbRefsL (partsOf outerQB) = [0, 0, 0] by decide +kernel] <;>
    intro r hr <;>
    simp only [List.mem_cons, List.not_mem_nil, or_false, or_self] at hr <;>
    subst hr <;>
    refine ⟨fullQB, rfl, tidyQL_check _ fun log => by kernel_rfl, ?_⟩ <;>
    rw [show qbRefsL (partsOf fullQB) = [] by decide +kernel] <;>
    intro r hr <;> cases hr

/-- A query with a `#join` over two lists of different length. -/
def leakCalls : List Call :=
  [.from_ ⟨lit "t", []⟩, .select [exprColumn (some (.F (lit "1")))],
   .where_ (some (.mk (lit "#join('#arg #f', ', ')") [.int 64 1, .int 64 2] [.frag (.F (lit "x"))] [] []))]

def leakQB : QB := match runCalls QB.new leakCalls with | .ok b => b | _ => QB.new

/-- The full C81 fails: the iteration that ends a `#join` leaves its argument behind. -/
theorem C81_join_leak_counterexample (L : GoLib) :
    Returns L (.qb 0) question [leakQB] (.ok (lit "SELECT 1 FROM t WHERE ? x", [.int 64 1, .int 64 2])) ∧
    Returns L (.qb 0) dollar [leakQB] (.ok (lit "SELECT 1 FROM t WHERE $1 x", [.int 64 1, .int 64 2])) :=
  ⟨returns_of_buildQuery (n := 200) (by kernel_rfl) (by simp), returns_of_buildQuery (n := 200) (by kernel_rfl) (by simp)⟩

end Sqlf.Props
