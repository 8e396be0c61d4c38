import Verif.Proofs.Debug
import Verif.Props.QueryDoc
import Verif.Props.Panic
import Verif.KernelRfl
/-!
# C73, C83: debug output
-/

namespace Sqlf.Props

open Spec

private theorem debug_rel {L : GoLib} {heap heap' : List QB} {H : List Val → Prop} (hd : WithDebug heap heap')
    (style : Style) (depth r : Nat)
    (h : Under H (heapSemD L (fun s => (parse L s).toOption) (cannotCommit style) (Store.new style) heap' (depth + 1) r)
      (heapSem L (fun s => (parse L s).toOption) (cannotCommit style) heap' (depth + 1) r)) :
    queryMeaningD L style heap' depth r = queryMeaning L style heap depth r ∨
      H (queryMeaningD L style heap' depth r).2 ∧ Hard (queryMeaningD L style heap' depth r).1 := by
  have := h []
  rwa [← heapSem_withDebug hd] at this

/-- **C73** Whatever query builders `Debug` is called on: if the build succeeds with it, it returns the same query
and arguments as without.  (`_partial`: a build that succeeds without Debug can fail with it, see
`C73_panics_counterexample`.) -/
theorem C73_debug_success_partial (L : GoLib) (heap heap' : List QB) (depth r : Nat) (h : QueryAt L heap depth r)
    (hd : WithDebug heap heap') (style : Style) (q : Str) (as : List Val)
    (hr : Returns L (.qb r) style heap' (.ok (q, as))) : Returns L (.qb r) style heap (.ok (q, as)) := by
  obtain ⟨d, vs, ps, st, h1, h2, -, rfl, rfl⟩ := outMatches_ok (returns_queryD (queryAt_withDebug hd h.d) style) hr
  rcases debug_rel (L := L) (H := fun _ => True) hd style depth r (heapSemD_under (depth + 1) r) with he | ⟨-, he⟩
  · rw [h1] at he
    have := outMatches_cases (returns_query h style)
    rw [← he] at this
    obtain ⟨ps', st', h3, -, h4⟩ := this
    rw [h2] at h3
    cases h3
    exact h4
  · rw [h1] at he; exact he.elim

/-- **C73** If the queries of the query builders with Debug can be printed (no text in them can be taken for a
placeholder), the outcome is the same with Debug as without.
(`_partial`: this condition; the build commits less than 2^63 values, and none of which the writing panics, see
`C73_nil_pointer_counterexample`.) -/
theorem C73_same_outcome_partial (L : GoLib) (heap heap' : List QB) (depth r : Nat) (h : QueryAt L heap depth r)
    (hd : WithDebug heap heap') (style : Style) (hp : Printable L style heap')
    (hl : (queryMeaningD L style heap' depth r).2.length < 2 ^ 63)
    (hw : ∀ v ∈ (queryMeaningD L style heap' depth r).2, ¬ WritingPanics v) (o o' : Out (Str × List Val))
    (hr : Returns L (.qb r) style heap o) (hr' : Returns L (.qb r) style heap' o') : SameOutcome o o' := by
  have hm : queryMeaningD L style heap' depth r = queryMeaning L style heap depth r := by
    rcases debug_rel (L := L) hd style depth r (heapSemD_fine hp (depth + 1) r) with he | ⟨he, -⟩
    · exact he
    · rcases he with he | ⟨v, hv, he⟩
      · omega
      · exact absurd he (hw v hv)
  obtain ⟨ps, st, o1, h1, h2, h3⟩ := returns_query h style
  obtain ⟨ps', st', o2, h4, h5, h6⟩ := returns_queryD (queryAt_withDebug hd h.d) style
  rw [hm] at h4 h6
  rw [h1] at h4
  cases h4
  cases returns_unique hr h2
  cases returns_unique hr' h5
  exact outMatches_same h3 h6

/-- **C73** With Debug on the query builder that is built only: if the build without Debug returns query `q` and
arguments `as`, the build with Debug panics if interpolating `as` into `q` panics, and otherwise returns the same;
other outcomes are the same. -/
theorem C73_top_level (L : GoLib) (heap : List QB) (depth r : Nat) (b b' : QB) (h : QueryAt L heap depth r)
    (hb : heap[r]? = some b) (hb' : Call.debug.apply b = .ok b') (style : Style) (o : Out (Str × List Val))
    (hn : ∀ r' ∈ qbRefsL (partsOf b), NestedIn (fun b => b.debug = false) (heap.set r b') depth r')
    (hr : Returns L (.qb r) style heap o) :
    match o with
    | .ok (q, as) => match interpolate L rfc3339 q as with
      | .panic _ => ∃ p, Returns L (.qb r) style (heap.set r b') (.panic p)
      | _ => Returns L (.qb r) style (heap.set r b') (.ok (q, as))
    | o => ∃ o', Returns L (.qb r) style (heap.set r b') o' ∧ SameOutcome o o' := by
  have hd : WithDebug heap (heap.set r b') := by
    clear hr h hn
    induction heap generalizing r with
    | nil => simp at hb
    | cons x xs ih =>
      cases r with
      | zero =>
        simp only [List.getElem?_cons_zero, Option.some.injEq] at hb
        subst hb
        exact .cons (.inr hb') (Pointwise.refl fun b _ => .inl rfl)
      | succ r => exact .cons (.inl rfl) (ih r (by simpa using hb))
  have hlt := (List.getElem?_eq_some_iff.1 hb).1
  have hm : queryMeaningD L style (heap.set r b') depth r =
      SemOf.bind (heapSem L (fun s => (parse L s).toOption) (cannotCommit style) heap (depth + 1) r)
        (printStep L (Store.new style) true) [] := by
    unfold queryMeaningD
    rw [heapSem_withDebug hd, heapSemD, heapSem, List.getElem?_set_self hlt]
    dsimp only
    have hp : partsOf b' = partsOf b := by cases hb'; rfl
    rw [show b'.debug = true by cases hb'; rfl]
    congr 1
    refine under_false.1 (qbSem_under fun c hc => semQ_under L _ _ c fun r' hr' => under_false.2 (heapSemD_off (hn r' ?_)))
    rw [← hp]
    exact allBuilders_refs ((mem_qbRefsL ..).2 ⟨c, hc, hr'⟩)
  obtain ⟨ps, st, o1, h1, h2, h3⟩ := returns_query h style
  obtain ⟨ps', st', o2, h4, h5, h6⟩ := returns_queryD (queryAt_withDebug hd h.d) style
  cases returns_unique hr h2
  rw [hm] at h4 h6
  unfold SemOf.bind at h4 h6
  rcases hx : heapSem L (fun s => (parse L s).toOption) (cannotCommit style) heap (depth + 1) r [] with ⟨x, vs⟩
  rw [show queryMeaning L style heap depth r = (x, vs) from hx] at h1 h3
  rw [hx] at h4 h6
  have hno := interpolate_not_oof
  cases x with
  | ok d =>
    cases o with
    | ok qa =>
      obtain ⟨rfl, -⟩ := h3
      dsimp only at h1 h4 h6 ⊢
      unfold printStep printPanics at h4 h6
      rw [h1] at h4 h6
      cases hi : interpolate L rfc3339 (renderDoc ps d) st.args with
      | panic p =>
        simp only [hi] at h4 h6
        cases o2 with
        | panic p => exact ⟨p, h5⟩
        | _ => exact h6.elim
      | oof => exact absurd hi (hno L rfc3339 _ _)
      | _ =>
        simp only [hi] at h4 h6
        change commitAll _ vs = _ at h4
        rw [h1] at h4
        cases h4
        cases o2 with
        | ok qa => obtain ⟨rfl, -⟩ := h6; exact h5
        | _ => exact h6.elim
    | _ => exact h3.elim
  | invalidIndex =>
    cases o with
    | ok qa => exact h3.elim
    | _ => exact ⟨o2, h5, by cases o2 <;> simp_all [OutMatches, SameOutcome]⟩
  | error =>
    cases o with
    | ok qa => exact h3.elim
    | _ => exact ⟨o2, h5, by cases o2 <;> simp_all [OutMatches, SameOutcome]⟩
  | panic =>
    cases o with
    | ok qa => exact h3.elim
    | _ => exact ⟨o2, h5, by cases o2 <;> simp_all [OutMatches, SameOutcome]⟩

/-! ## Samples -/

def withDebug (b : QB) : QB := { b with debug := true }

def idCalls : List Call :=
  [.select [exprColumn (some (.F (lit "1")))], .from_ ⟨lit "t", []⟩, .where_ (some (.Fa (lit "id = ?") [.int 64 7]))]

/-- `SELECT 1 FROM t WHERE id = ?` -/
def idQB : QB := match runCalls QB.new idCalls with | .ok b => b | _ => QB.new

theorem idQB_at (L : GoLib) : QueryAt L [idQB] 0 0 :=
  ⟨idQB, idCalls, rfl, made_of_calls (by rfl), by decide +kernel, noCodeL_check _ (by decide +kernel), by
    rw [show qbRefsL (partsOf idQB) = [] by decide +kernel]
    intro r hr; cases hr⟩

theorem idQB_printable (L : GoLib) : Printable L dollar [withDebug idQB] := by
  intro r b hr hd depth log d vs h
  cases r with
  | succ r => simp at hr
  | zero =>
    cases depth with
    | zero => cases h
    | succ depth =>
      have : heapSem L (fun s => (parse L s).toOption) (cannotCommit dollar) [withDebug idQB] (depth + 1) 0 log =
        (.ok (docOf [.text (lit "SELECT 1 FROM t WHERE id = "), .mark log.length]), log ++ [.int 64 7]) := by kernel_rfl
      rw [this] at h
      cases h
      exact ⟨[.text (lit "SELECT 1 FROM t WHERE id = "), .mark log.length],
        ⟨⟨by decide, by decide⟩, trivial, trivial, trivial, trivial⟩, rfl⟩

example (L : GoLib) : QueryAt L [idQB] 0 0 ∧ WithDebug [idQB] [withDebug idQB] ∧ Printable L dollar [withDebug idQB] ∧
    (queryMeaningD L dollar [withDebug idQB] 0 0).2.length < 2 ^ 63 ∧
    (∀ v ∈ (queryMeaningD L dollar [withDebug idQB] 0 0).2, ¬ WritingPanics v) ∧
    Returns L (.qb 0) dollar [idQB] (.ok (lit "SELECT 1 FROM t WHERE id = $1", [.int 64 7])) ∧
    Returns L (.qb 0) dollar [withDebug idQB] (.ok (lit "SELECT 1 FROM t WHERE id = $1", [.int 64 7])) :=
  ⟨idQB_at L, .cons (.inr rfl) .nil, idQB_printable L, by
    rw [show (queryMeaningD L dollar [withDebug idQB] 0 0).2 = [.int 64 7] by kernel_rfl]; decide, by
    rw [show (queryMeaningD L dollar [withDebug idQB] 0 0).2 = [.int 64 7] by kernel_rfl]; simp [WritingPanics],
   returns_of_buildQuery (n := 200) (by kernel_rfl) (by simp), returns_of_buildQuery (n := 200) (by kernel_rfl) (by simp)⟩

/-- The same with Debug on a query used in others, and on all of them. -/
example (L : GoLib) : QueryAt L [fullQB, outerQB] 1 1 ∧ WithDebug [fullQB, outerQB] [withDebug fullQB, withDebug outerQB] ∧
    (∃ q as, Returns L (.qb 1) dollar [withDebug fullQB, withDebug outerQB] (.ok (q, as))) :=
  ⟨outerQB_at L, .cons (.inr rfl) (.cons (.inr rfl) .nil), _, _,
   returns_of_buildQuery (o := .ok (lit "With w AS (" ++ fullDollar ++ lit ") SELECT w.id FROM w WHERE w.id IN ("
      ++ fullDollar ++ lit ") AND w.x = $2 UNION (" ++ fullDollar ++ lit ")",
      [.int 64 7, .int 64 18, .int 64 1, .int 64 2])) (n := 200) (by kernel_rfl) (by simp)⟩

example (L : GoLib) : QueryAt L [fullQB, outerQB] 1 1 ∧ [fullQB, outerQB][1]? = some outerQB ∧
    Call.debug.apply outerQB = .ok (withDebug outerQB) ∧
    (∀ r' ∈ qbRefsL (partsOf outerQB), NestedIn (fun b => b.debug = false) ([fullQB, outerQB].set 1 (withDebug outerQB)) 1 r') :=
  ⟨outerQB_at L, rfl, rfl, by
    rw [show qbRefsL (partsOf outerQB) = [0, 0, 0] by decide +kernel]
    intro r hr
    simp only [List.mem_cons, List.not_mem_nil, or_false, or_self] at hr
    subst hr
    refine ⟨fullQB, rfl, by decide +kernel, ?_⟩
    rw [show qbRefsL (partsOf fullQB) = [] by decide +kernel]
    intro r hr; cases hr⟩

/-- **C64** (partial: as for C73, what is printed must be printable) Nor does it panic with Debug on any of the
query builders. -/
theorem C64_with_debug_never_panics_partial (L : GoLib) (heap heap' : List QB)
    (hh : ∀ b ∈ heap, ∃ cs, Made L cs b ∧ Complete L heap.length cs) (depth r : Nat) (h : QueryAt L heap depth r)
    (hd : WithDebug heap heap') (style : Style) (hp : Printable L style heap')
    (hl : (queryMeaningD L style heap' depth r).2.length < 2 ^ 63)
    (hw : ∀ v ∈ (queryMeaningD L style heap' depth r).2, ¬ WritingPanics v) (o' : Out (Str × List Val))
    (hr' : Returns L (.qb r) style heap' o') : ∀ p, o' ≠ .panic p := by
  obtain ⟨-, -, o, -, h2, -⟩ := returns_query h style
  have hs := C73_same_outcome_partial L heap heap' depth r h hd style hp hl hw o o' h2 hr'
  have hlt : r < heap.length := by
    obtain ⟨b, cs, hb, -⟩ := h
    exact (List.getElem?_eq_some_iff.1 hb).1
  have hn := C64_complete_queries_never_panic_partial L heap hh r hlt style o h2
  rintro p rfl
  cases o <;> simp_all [SameOutcome]

theorem idQB_complete (L : GoLib) : Complete L 1 idCalls where
  table := ⟨.from_ ⟨lit "t", []⟩, by simp [idCalls], _, rfl⟩
  columns := by decide +kernel
  conditions := by
    intro c hc r hr
    simp only [idCalls, List.mem_cons, List.not_mem_nil, or_false] at hc
    rcases hc with rfl | rfl | rfl <;> simp only [gives] at hr <;> cases hr <;> decide
  names := by
    intro c hc r hr
    simp only [idCalls, List.mem_cons, List.not_mem_nil, or_false] at hc
    rcases hc with rfl | rfl | rfl <;> simp only [gives] at hr <;> cases hr <;> decide
  ctes := by
    rw [show declaredBy idCalls = [] by decide +kernel]
    intro c hc; cases hc
  unions := by
    rw [show unitedWith idCalls = [] by decide +kernel]
    intro c hc; cases hc
  quiet := by decide

example (L : GoLib) : (∀ b ∈ [idQB], ∃ cs, Made L cs b ∧ Complete L [idQB].length cs) ∧ QueryAt L [idQB] 0 0 ∧
    WithDebug [idQB] [withDebug idQB] ∧ Printable L dollar [withDebug idQB] :=
  ⟨by intro b hb; cases List.mem_singleton.1 hb; exact ⟨idCalls, made_of_calls (by rfl), idQB_complete L⟩,
   idQB_at L, .cons (.inr rfl) .nil, idQB_printable L⟩

/-- `SELECT 1 FROM t WHERE x = ?5`, the digit from another fragment. -/
def digitQB : QB :=
  match runCalls QB.new [.select [exprColumn (some (.F (lit "1")))], .from_ ⟨lit "t", []⟩,
    .where_ (some (.mk (lit "x = #f1#f2") [] [.frag (.Fa (lit "?") [.int 64 7]), .frag (.F (lit "5"))] [] []))] with
  | .ok b => b
  | _ => QB.new

/-- The full C73 fails: with Debug the build panics, because `$15` cannot be filled in. -/
theorem C73_panics_counterexample (L : GoLib) :
    Call.debug.apply digitQB = .ok (withDebug digitQB) ∧
    Returns L (.qb 0) dollar [digitQB] (.ok (lit "SELECT 1 FROM t WHERE x = $15", [.int 64 7])) ∧
    Returns L (.qb 0) dollar [withDebug digitQB] (.panic .indexOutOfRange) :=
  ⟨rfl, returns_of_buildQuery (n := 200) (by kernel_rfl) (by simp),
   returns_of_buildQuery (n := 200) (by kernel_rfl) (by simp)⟩

/-- `SELECT 1 FROM t WHERE at = ?` with `(*time.Time)(nil)`. -/
def nilTimeQB : QB :=
  match runCalls QB.new [.select [exprColumn (some (.F (lit "1")))], .from_ ⟨lit "t", []⟩,
    .where_ (some (.Fa (lit "at = ?") [.nilRecv 5]))] with
  | .ok b => b
  | _ => QB.new

/-- Nor does it hold with a nil pointer among the arguments that has a method of the type it points to. -/
theorem C73_nil_pointer_counterexample (L : GoLib) :
    Call.debug.apply nilTimeQB = .ok (withDebug nilTimeQB) ∧
    Returns L (.qb 0) dollar [nilTimeQB] (.ok (lit "SELECT 1 FROM t WHERE at = $1", [.nilRecv 5])) ∧
    Returns L (.qb 0) dollar [withDebug nilTimeQB] (.panic .nilDereference) :=
  ⟨rfl, returns_of_buildQuery (n := 200) (by kernel_rfl) (by simp),
   returns_of_buildQuery (n := 200) (by kernel_rfl) (by simp)⟩

/-! ## C83 -/

/-- **C83** If `Debug` was called on a query builder and its build succeeds, the last line printed is the query
returned, the arguments of the context filled in, or empty if they cannot be filled in. -/
theorem C83_query_is_printed (L : GoLib) (cs : List Call) (b : QB) (hm : Made L cs b) (hd : debugIn cs = true)
    (ctx : Ctx) (r : Nat) (s s' : St) (q : Str) (hr : s.heap[r]? = some b) (h : BuildsTo L ctx (.qb r) s (.ok q, s')) :
    ∃ lines line, s'.log = lines ++ [line] ∧ (interpolate L rfc3339 q s'.store.args = .ok line ∨
      (∃ e, interpolate L rfc3339 q s'.store.args = .err e) ∧ line = []) :=
  printed_last hr (by rw [made_debug hm, hd]) h

/-- **C83** If `Debug` was called on none of the query builders in memory, nothing is printed, whatever is built and
however it ends. -/
theorem C83_nothing_printed_without_debug (L : GoLib) (ctx : Ctx) (c : Builder) (s s' : St) (o : Out Str)
    (hd : ∀ (r : Nat) (b : QB), s.heap[r]? = some b → ∃ cs, Made L cs b ∧ debugIn cs = false)
    (h : BuildsTo L ctx c s (o, s')) : s'.log = s.log := by
  obtain ⟨-, N, hN⟩ := h
  have := (run_eff notPrinted_effRel L N ctx (.build c)).out s
  rw [hN N (Nat.le_refl _)] at this
  exact (this fun r b hr => by obtain ⟨cs, h1, h2⟩ := hd r b hr; rw [made_debug h1, h2]).1

def innerCalls : List Call :=
  [.select [exprColumn (some (.F (lit "a")))], .from_ ⟨lit "t", []⟩, .where_ (some (.Fa (lit "b = ?") [.int 64 2])), .debug]

def innerQB : QB :=
  match runCalls QB.new innerCalls with
  | .ok b => b
  | _ => QB.new

example (L : GoLib) : Made L innerCalls innerQB ∧ debugIn innerCalls = true ∧
    (∃ s', BuildsTo L rootCtx (.qb 0) (St.init dollar [innerQB]) (.ok (lit "SELECT a FROM t WHERE b = $1"), s') ∧
      s'.log = [lit "SELECT a FROM t WHERE b = 2"]) :=
  ⟨made_of_calls (by rfl), by decide, (run L 200 rootCtx (.build (.qb 0)) (St.init dollar [innerQB])).2, buildsTo_of_run (n := 200) (by kernel_rfl) (by simp), by kernel_rfl⟩

/-- Nothing is printed for the full query and those around it. -/
example (L : GoLib) : ∀ (r : Nat) (b : QB), [fullQB, outerQB][r]? = some b → ∃ cs, Made L cs b ∧ debugIn cs = false
  | 0, _, rfl => ⟨_, fullQB_made L, by decide +kernel⟩
  | 1, _, rfl => ⟨outerCalls, made_of_calls (by rfl), by decide +kernel⟩

def aroundQB : QB :=
  match runCalls QB.new [.select [exprColumn (some (.F (lit "c")))], .from_ ⟨lit "u", []⟩,
    .where_ (some (.Fa (lit "d = ?") [.int 64 1])), .where_ (some (.mk (lit "e IN (#f1)") [] [.qb 0] [] []))] with
  | .ok b => b
  | _ => QB.new

/-- What a build prints, in a new context of the style. -/
def printedBy (L : GoLib) (style : Style) (heap : List QB) (r : Nat) : List Str :=
  (buildQueryS L 200 (.qb r) style heap).2.log

/-- A query builder with Debug used in another one: in the Question style the line printed has the wrong value
(`b = 1` instead of `b = 2`), as the arguments of the whole context are filled in from the first one on. -/
theorem C83_nested_counterexample (L : GoLib) :
    printedBy L dollar [innerQB, aroundQB] 1 = [lit "SELECT a FROM t WHERE b = 2"] ∧
    printedBy L question [innerQB, aroundQB] 1 = [lit "SELECT a FROM t WHERE b = 1"] :=
  ⟨by kernel_rfl, by kernel_rfl⟩

end Sqlf.Props
