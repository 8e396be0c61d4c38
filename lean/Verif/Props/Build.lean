import Verif.Proofs.Api
import Verif.Proofs.AnyCtx
import Verif.Proofs.CommitRel
import Verif.Proofs.Meaning
import Verif.Proofs.CheckWF
import Verif.Proofs.GoEqual
import Verif.KernelRfl
/-!
# C01, C18, C19, C21–C23, C36, C37: building trees

`Returns L b style heap o`: `BuildQuery` of `b` returns `o` (`Verif.Spec.Outcome`).
`meaningOf L style b`: the specified outcome and the committed values (`Verif.Spec.Denote`).
-/

namespace Sqlf.Props

open Spec

/-- A tree used in the examples: a fragment with two arguments, a column and a nested fragment
joined with a table. -/
def sampleTree : Builder :=
  .frag (.mk (lit " #f1 = ? AND x IN (#join('#arg', ', ', 1)) #f2 #f3 ")
    [.int 64 7, .str 0 (lit "a")]
    [.column (lit "t") (.F (lit "t.id")), .table (lit "u"), .frag (.mk (lit "y > $1") [.int 64 7] [] (lit "AND") [])]
    (lit "WHERE") [])

theorem sampleTree_isTree : IsTree sampleTree := by simp [sampleTree, IsTree, IsTreeF, IsTreeL, Fragment.F]

/-! ## C01 -/

/-- **C01** Text without special bytes is built to itself, trimmed, without arguments. -/
theorem C01_plain_sql_unchanged (L : GoLib) (raw : Str) (h : ∀ b ∈ raw, plainByte b = true)
    (style : Style) (heap : List QB) :
    Returns L (.frag (.F raw)) style heap (.ok (trimSpace raw, [])) := by
  have ht : IsTree (.frag (.F raw)) := by simp [IsTree, IsTreeF, IsTreeL, Fragment.F]
  have hp : ∃ es, parse L raw = .ok es ∧ glue es = glue [.plain raw] := by
    by_cases hr : raw = []
    · subst hr; exact ⟨[], by kernel_rfl, rfl⟩
    · have hw : WF [.text raw] := ⟨h, by simp [hr], trivial, trivial, trivial⟩
      have := parse_render_some L hw (es := [.plain raw]) rfl
      simpa [render, renderItem] using this
  obtain ⟨es, hp, hg⟩ := hp
  have hm : meaningOf L style (.frag (.F raw)) = (.ok (Doc.ofStr (trimSpace raw)), []) := by
    unfold meaningOf sem Fragment.F semF fragmentSem
    dsimp only
    rw [hp]
    have hc : ∀ call, clauseDoc (cannotCommit style) ⟨[], []⟩ call es = .pure (Doc.ofStr raw ++ []) := by
      intro call
      rw [← clauseDoc_glue, hg, clauseDoc_glue]; rfl
    simp only [Except.toOption, semL, hc, Step.pure, allUsed, List.append_nil]
    have ht : trimDoc (Doc.ofStr raw) = Doc.ofStr (trimSpace raw) := by
      have hl : ∀ s, leadText (Doc.ofStr s) = s ∧ fromMark (Doc.ofStr s) = [] := by
        intro s
        induction s with
        | nil => exact ⟨rfl, rfl⟩
        | cons b s ih => exact ⟨congrArg (b :: ·) ih.1, ih.2⟩
      have hrev : ∀ s, (Doc.ofStr s).reverse = Doc.ofStr s.reverse := by simp [Doc.ofStr]
      unfold trimDoc trimRightDoc trimLeftDoc tailText toMark trimSpace
      simp [hl, hrev]
    have hd : decorateDoc [] [] (Doc.ofStr raw) = Doc.ofStr (trimSpace raw) := by
      unfold decorateDoc
      rw [ht]
      split
      · rename_i h; exact h.symm
      · simp
    simp [hd]
  obtain ⟨ps, st, h1, h2, h3⟩ := ok_returns ht (heap := heap) hm
  simp only [commitAll, Option.some.injEq, Prod.mk.injEq] at h1
  obtain ⟨rfl, rfl⟩ := h1
  rw [renderDoc_ofStr] at h3
  simpa [Store.new] using h3

example : (∀ b ∈ lit " SELECT a.* FROM a WHERE x >= 10 ;\n", plainByte b = true) ∧
    trimSpace (lit " SELECT a.* FROM a WHERE x >= 10 ;\n") = lit "SELECT a.* FROM a WHERE x >= 10 ;" := by
  decide +kernel

/-! ## C18 -/

/-- **C18** Building a finite tree with the built-in functions returns, and needs a recursion
depth that depends on the tree only. -/
theorem C18_building_terminates (L : GoLib) (b : Builder) (ht : IsTree b) :
    ∃ depth, ∀ style heap, ∃ o, Returns L b style heap o ∧
      ∀ n, depth ≤ n → buildQuery L n b style heap = o := by
  refine ⟨need b, fun style heap => ?_⟩
  have hn := build_sim_at (Store.new style) L b ht (need b) (Nat.le_refl _) rootCtx rootCtx_builtin
    [] (St.init style heap) [] rfl
  obtain ⟨ps, -, -, -, -, hm⟩ := hn
  have hne : buildQuery L (need b) b style heap ≠ .oof := by
    unfold buildQuery
    rw [buildQueryS_eq, Ne, queryOut_oof]
    exact matches_not_oof hm
  refine ⟨_, returns_of_buildQuery rfl hne, fun n hn => ?_⟩
  unfold buildQuery at hne ⊢
  rw [buildQueryS_eq] at hne ⊢
  rw [buildQueryS_eq]
  dsimp only at hne ⊢
  rw [run_le L hn rootCtx (.build b) _ (by rw [Ne, ← queryOut_oof]; exact hne)]

/-- Building in any context whose functions are the built-in ones returns too. -/
theorem C18_building_terminates_in_context (L : GoLib) (b : Builder) (ht : IsTree b) (ctx : Ctx)
    (hb : OnlyBuiltins L ctx) (s : St) : ∃ r, BuildsTo L ctx b s r := by
  obtain ⟨_, _, _, h, _⟩ := buildsTo_tree L ht (onlyBuiltins_iff hb) s.store (ps := []) (s := s) (log := []) rfl
  exact ⟨_, h⟩

/-! ## C19 -/

/-- **C19** `BuildQuery` computes the meaning of the tree: the query is the specified document
with the placeholders of the argument store in its marks, the arguments are what the store
holds after the specified commits, and errors and panics occur exactly as specified. -/
theorem C19_query_is_substituted_template (L : GoLib) (b : Builder) (ht : IsTree b) (style : Style)
    (heap : List QB) :
    match meaningOf L style b with
    | (.ok d, vs) => ∃ ps st, commitAll (Store.new style) vs = some (ps, st) ∧
        Returns L b style heap (.ok (renderDoc ps d, st.args))
    | (.invalidIndex, _) => ∃ e, Returns L b style heap (.err e) ∧ e.isInvalidIndex = true
    | (.error, _) => ∃ e, Returns L b style heap (.err e) ∧ e.isInvalidIndex = false
    | (.panic, _) => ∃ p, Returns L b style heap (.panic p) := by
  obtain ⟨ps, st, o, h1, h2, h3⟩ := returns_tree L ht style heap
  rcases hm : meaningOf L style b with ⟨r, vs⟩
  rw [hm] at h1 h3
  cases r with
  | ok d =>
    cases o with
    | ok r => exact ⟨ps, st, h1, by rw [← h3.1]; exact h2⟩
    | _ => exact h3.elim
  | invalidIndex =>
    cases o with
    | err e => exact ⟨e, h2, h3⟩
    | _ => exact h3.elim
  | error =>
    cases o with
    | err e => exact ⟨e, h2, h3⟩
    | _ => exact h3.elim
  | panic =>
    cases o with
    | panic p => exact ⟨p, h2⟩
    | _ => exact h3.elim

/-- The same in a context to which `log` has been committed since the store was `s0`, at any
nesting level: the outcome, the placeholders, and the values committed on top of `log`; nothing
else changes. -/
theorem C19_in_context (L : GoLib) (b : Builder) (ht : IsTree b) (ctx : Ctx) (hb : OnlyBuiltins L ctx)
    (s0 : Store) (ps : List Str) (s : St) (log : List Val)
    (hs : commitAll s0 log = some (ps, s.store)) :
    ∃ ps' st o, BuildsTo L ctx b s (o, { s with store := st }) ∧
      commitAll s0 (sem L (fun s => (parse L s).toOption) (fun v => s0.isDollar && !v.hashable) b log).2 = some (ps', st) ∧
      log <+: (sem L (fun s => (parse L s).toOption) (fun v => s0.isDollar && !v.hashable) b log).2 ∧
      match (sem L (fun s => (parse L s).toOption) (fun v => s0.isDollar && !v.hashable) b log).1, o with
      | .ok d, .ok t => t = renderDoc ps' d
      | .invalidIndex, .err e => e.isInvalidIndex = true
      | .error, .err e => e.isInvalidIndex = false
      | .panic, .panic _ => True
      | _, _ => False := by
  obtain ⟨ps', st, o, h1, h2, -, h4, h5⟩ := buildsTo_tree L ht (onlyBuiltins_iff hb) s0 hs
  refine ⟨ps', st, o, h1, h2, h4, ?_⟩
  change Matches ps' (sem L (fun s => (parse L s).toOption) (fun v => s0.isDollar && !v.hashable) b log).1 o at h5
  revert h5
  generalize (sem L (fun s => (parse L s).toOption) (fun v => s0.isDollar && !v.hashable) b log).1 = r
  intro h5
  cases r <;> cases o <;> first | exact h5.1 | exact h5 | trivial

/-- The sample has a meaning, and its query and arguments are what one expects. -/
example (L : GoLib) : buildQuery L 200 sampleTree dollar =
    .ok (lit "WHERE t.id = $1 AND x IN ($1, $2) u AND y > $1", [.int 64 7, .str 0 (lit "a")]) := by
  kernel_rfl
example (L : GoLib) : (meaningOf L dollar sampleTree).2 =
    [.int 64 7, .int 64 7, .str 0 (lit "a"), .int 64 7] := by
  kernel_rfl

/-! ## C21 -/

/-- **C21** In the Dollar style the query is the specified document, and every mark of it is
written as `$n` with `1 ≤ n ≤ len(args)`, where the `n`-th argument is the value the mark stands
for, or equal to it in Go. -/
theorem C21_dollar_placeholders_resolve (L : GoLib) (b : Builder) (ht : IsTree b) (heap : List QB)
    (q : Str) (as : List Val) (h : Returns L b dollar heap (.ok (q, as))) :
    ∃ d vs ps, meaningOf L dollar b = (.ok d, vs) ∧ q = renderDoc ps d ∧
      ∀ k ∈ binds d, ∃ n v w, ps[k]? = some (dollarMark n) ∧ 1 ≤ n ∧ n ≤ as.length ∧
        vs[k]? = some v ∧ as[n - 1]? = some w ∧ (w = v ∨ GoEqual w v) := by
  simp only [goEqual_iff]
  obtain ⟨d, log, ps, st, h1, h2, h3, h4, rfl⟩ := returns_ok ht h
  refine ⟨d, log, ps, h1, h4, fun k hk => ?_⟩
  have hlt := h3 k hk
  rw [commitAll_length h2] at hlt
  obtain ⟨j, w, hp, hw, he⟩ := commitAll_resolve (Store.new_inv dollar) rfl h2 k log[k]
    (by simp [hlt])
  refine ⟨j + 1, log[k], w, hp, by omega, ?_, by simp [hlt], by simpa using hw, he⟩
  have := (List.getElem?_eq_some_iff.1 hw).1
  omega

example (L : GoLib) : IsTree sampleTree ∧ Returns L sampleTree dollar []
    (.ok (lit "WHERE t.id = $1 AND x IN ($1, $2) u AND y > $1", [.int 64 7, .str 0 (lit "a")])) :=
  ⟨sampleTree_isTree, returns_of_buildQuery (n := 200) (by kernel_rfl) (by simp)⟩

/-! ## C22 -/

private theorem same_text (L : GoLib) (R : Val → Val → Prop) (b c : Builder) (hb : IsTree b)
    (hc : IsTree c) (hs : SameShape R b c) (style : Style) (heap : List QB)
    (hR : style = dollar → Compat R) (q : Str) (as : List Val)
    (h : Returns L b style heap (.ok (q, as))) :
    ∃ as', Returns L c style heap (.ok (q, as')) ∧ Pointwise R as as' := by
  have hbad : ∀ v w, R v w → cannotCommit style v = cannotCommit style w := by
    intro v w hvw
    unfold cannotCommit
    by_cases hd : style = dollar
    · simp [hd, (hR hd).hash v w hvw]
    · simp [hd]
  obtain ⟨d, log, ps, st, h1, h2, h3, rfl, rfl⟩ := returns_ok hb h
  have hrel := sem_rel hbad L (fun s => (parse L s).toOption) b c hs [] []
  change ResR 0 0 (meaningOf L style b).1 (meaningOf L style c).1 ∧
    LogR R [] [] (meaningOf L style b).2 (meaningOf L style c).2 at hrel
  rw [h1] at hrel
  rcases hm : meaningOf L style c with ⟨r, log'⟩
  rw [hm] at hrel
  obtain ⟨hr, δ1, δ2, rfl, rfl, hp⟩ := hrel
  cases r with
  | ok d' =>
    obtain ⟨e, rfl, rfl⟩ := hr
    simp only [List.nil_append] at h2 hm hp
    obtain ⟨st', h4, h5⟩ := commitAll_rel (storeR_new R style)
      (by intro hd; apply hR; simpa [Store.new] using hd) hp h2
    obtain ⟨ps', st'', h6, -, h8⟩ := ok_returns hc (heap := heap) hm
    rw [h4] at h6
    cases h6
    exact ⟨_, h8, h5.args⟩
  | invalidIndex => exact hr.elim
  | error => exact hr.elim
  | panic => exact hr.elim

/-- **C22** (Question) Replacing the argument values of a tree by any other values leaves the
query text unchanged; the arguments are the replaced ones. -/
theorem C22_values_never_in_text_question (L : GoLib) (R : Val → Val → Prop) (b c : Builder)
    (hb : IsTree b) (hc : IsTree c) (hs : SameShape R b c) (heap : List QB) (q : Str) (as : List Val)
    (h : Returns L b question heap (.ok (q, as))) :
    ∃ as', Returns L c question heap (.ok (q, as')) ∧ Pointwise R as as' :=
  same_text L R b c hb hc hs question heap (fun h => absurd h (by decide)) q as h

/-- **C22** (Dollar) Replacing the argument values of a tree by other values with the same
equality pattern leaves the query text unchanged; the arguments are the replaced ones. -/
theorem C22_values_never_in_text_dollar (L : GoLib) (R : Val → Val → Prop) (hR : Compat R)
    (b c : Builder) (hb : IsTree b) (hc : IsTree c) (hs : SameShape R b c) (heap : List QB)
    (q : Str) (as : List Val) (h : Returns L b dollar heap (.ok (q, as))) :
    ∃ as', Returns L c dollar heap (.ok (q, as')) ∧ Pointwise R as as' :=
  same_text L R b c hb hc hs dollar heap (fun _ => hR) q as h

/-- A hostile value: the text stays the same. -/
example : SameShape (fun _ _ => True) (.frag (.Fa (lit "x = ?") [.int 64 1]))
    (.frag (.Fa (lit "x = ?") [.str 0 (lit "'; DROP TABLE t; -- ? $1 #f1")])) := by
  simp [SameShape, SameShapeF, SameShapeL, Fragment.Fa]; exact .cons trivial .nil
example : Compat (fun v w => (v = .int 64 1 ∧ w = .str 0 (lit "a")) ∨
    (v = .int 64 2 ∧ w = .str 0 (lit "b"))) where
  eq := by rintro _ _ _ _ (⟨rfl, rfl⟩ | ⟨rfl, rfl⟩) (⟨rfl, rfl⟩ | ⟨rfl, rfl⟩) <;> decide
  hash := by rintro _ _ (⟨rfl, rfl⟩ | ⟨rfl, rfl⟩) <;> decide

/-! ## C23 -/

/-- **C23** For a tree whose values can all be committed in both styles, the two builds have the
same outcome: the same kind of failure, or queries that are the same document `d` written with
`?` and with `$n`, where the `$n` in place of the `k`-th committed value refers to an argument
equal to it. (`_partial`: values that cannot be map keys are excluded, see
`C23_styles_differ_counterexample`.) -/
theorem C23_styles_agree_partial (L : GoLib) (b : Builder) (ht : IsTree b)
    (hh : AllVals (fun v => ¬ Unhashable v) b) (heap : List QB) :
    (∃ d vs ps as, Returns L b question heap (.ok (renderDoc (List.replicate vs.length (lit "?")) d, vs)) ∧
      Returns L b dollar heap (.ok (renderDoc ps d, as)) ∧
      ∀ k ∈ binds d, ∃ n v w, ps[k]? = some (dollarMark n) ∧ vs[k]? = some v ∧
        1 ≤ n ∧ as[n - 1]? = some w ∧ (w = v ∨ GoEqual w v)) ∨
    (∃ e e', Returns L b question heap (.err e) ∧ Returns L b dollar heap (.err e') ∧
      e.isInvalidIndex = e'.isInvalidIndex) ∨
    (∃ p p', Returns L b question heap (.panic p) ∧ Returns L b dollar heap (.panic p')) := by
  rw [not_unhashable_fun] at hh
  simp only [goEqual_iff]
  have hrel := sem_rel (R := fun v w => v = w ∧ v.hashable = true)
    (bad1 := cannotCommit question) (bad2 := cannotCommit dollar)
    (by rintro v w ⟨rfl, h⟩
        have : ¬ question = dollar := by decide
        simp [cannotCommit, h, this])
    L (fun s => (parse L s).toOption) b b
    (sameShape_self (fun v hv => ⟨rfl, hv⟩) b ht hh) [] []
  change ResR 0 0 (meaningOf L question b).1 (meaningOf L dollar b).1 ∧
    LogR _ [] [] (meaningOf L question b).2 (meaningOf L dollar b).2 at hrel
  have hq := C19_query_is_substituted_template L b ht question heap
  have hd := C19_query_is_substituted_template L b ht dollar heap
  rcases e1 : meaningOf L question b with ⟨r1, l1⟩
  rcases e2 : meaningOf L dollar b with ⟨r2, l2⟩
  rw [e1, e2] at hrel
  rw [e1] at hq
  rw [e2] at hd
  obtain ⟨hr, δ1, δ2, h1, h2, hp⟩ := hrel
  have hδ : δ1 = δ2 := (hp.mono fun a b h => h.1).eq
  subst hδ
  simp only [List.nil_append] at h1 h2
  subst h1 h2
  cases r1 <;> cases r2 <;> try (exact hr.elim)
  · left
    obtain ⟨e, rfl, rfl⟩ := hr
    obtain ⟨ps, st, h1, h2⟩ := hd
    obtain ⟨ps', st', h3, h4⟩ := hq
    rw [commitAll_question _ _ rfl] at h3
    cases h3
    refine ⟨_, l2, ps, st.args, h4, h2, fun k hk => ?_⟩
    obtain ⟨ps2, st2, h7, h8, -⟩ := ok_returns ht (heap := heap) e2
    rw [h1] at h7
    cases h7
    have hlt := h8 k hk
    rw [commitAll_length h1] at hlt
    obtain ⟨j, w, hp, hw, he⟩ := commitAll_resolve (Store.new_inv dollar) rfl h1 k l2[k]
      (by simp [hlt])
    exact ⟨j + 1, l2[k], w, hp, by simp [hlt], by omega, by simpa using hw, he⟩
  · right; left
    obtain ⟨e, h1, h2⟩ := hq
    obtain ⟨e', h3, h4⟩ := hd
    exact ⟨e, e', h1, h3, by rw [h2, h4]⟩
  · right; left
    obtain ⟨e, h1, h2⟩ := hq
    obtain ⟨e', h3, h4⟩ := hd
    exact ⟨e, e', h1, h3, by rw [h2, h4]⟩
  · right; right
    obtain ⟨p, h1⟩ := hq
    obtain ⟨p', h3⟩ := hd
    exact ⟨p, p', h1, h3⟩

example : AllVals (fun v => ¬ Unhashable v) sampleTree := by
  rw [not_unhashable_fun]
  simp [sampleTree, AllVals, AllValsF, AllValsL, Fragment.F]; decide

/-- The full C23 fails: a `[]byte` argument builds in the Question style and panics in the
Dollar style. -/
theorem C23_styles_differ_counterexample (L : GoLib) :
    Returns L (.frag (.Fa (lit "?") [.slice 9 [.uint 8 0x61]])) question [] (.ok (lit "?", [.slice 9 [.uint 8 0x61]])) ∧
    Returns L (.frag (.Fa (lit "?") [.slice 9 [.uint 8 0x61]])) dollar [] (.panic .unhashableKey) :=
  ⟨returns_of_buildQuery (n := 10) (by kernel_rfl) (by simp),
   returns_of_buildQuery (n := 10) (by kernel_rfl) (by simp)⟩

/-! ## C36 -/

/-- **C36** Building a tree leaves the query builders in memory as they are, so that building it
again in a new context has the same outcome; a successful build has the same result whatever
query builders exist.  (The fragments, columns and tables of the tree are values in the model;
no modelled function assigns to them.) -/
theorem C36_building_changes_nothing (L : GoLib) (b : Builder) (ht : IsTree b) (style : Style)
    (heap : List QB) (o : Out (Str × List Val)) (h : Returns L b style heap o) :
    ReturnsLeaving L b style heap o heap ∧
    ∀ r, o = .ok r → ∀ heap', Returns L b style heap' o := by
  constructor
  · obtain ⟨hne, N, h2⟩ := h
    refine ⟨hne, max N (need b), fun n hm => ⟨h2 n (by omega), ?_⟩⟩
    have hn : need b ≤ n := by omega
    obtain ⟨ps, -, h3, -, -, -⟩ := build_sim_at (Store.new style) L b ht n hn rootCtx rootCtx_builtin
      [] (St.init style heap) [] rfl
    rw [buildQueryS_eq]
    dsimp only
    rw [h3]; rfl
  · rintro ⟨q, as⟩ rfl heap'
    obtain ⟨d, log, ps, st, h1, h2, h3, rfl, rfl⟩ := returns_ok ht h
    obtain ⟨ps', st', h4, -, h5⟩ := ok_returns ht (heap := heap') h1
    rw [h2] at h4
    cases h4
    exact h5

/-! ## C37 -/

/-- **C37** In a Dollar context to which any values `log` have been committed, building a tree of
values that are equal to themselves a second time gives the same text and leaves the arguments
(and everything else) unchanged. -/
theorem C37_rebuild_reuses_placeholders (L : GoLib) (b : Builder) (ht : IsTree b)
    (hv : AllVals (fun v => GoEqual v v) b) (ctx : Ctx) (hb : OnlyBuiltins L ctx)
    (log : List Val) (ps : List Str) (s s' : St)
    (hs : commitAll (Store.new dollar) log = some (ps, s.store)) (t : Str)
    (h : BuildsTo L ctx b s (.ok t, s')) : BuildsTo L ctx b s' (.ok t, s') := by
  rw [goEqual_self_fun] at hv
  obtain ⟨ps1, st1, o1, h1, h2, h3, h4, h5⟩ := buildsTo_tree L ht (onlyBuiltins_iff hb) _ hs
  have he := buildsTo_unique h h1
  simp only [Prod.mk.injEq] at he
  obtain ⟨rfl, hs'⟩ := he
  have hrel := sem_rel (R := fun v w => v = w ∧ v.goEq v = true)
    (bad1 := badFor (Store.new dollar)) (bad2 := badFor (Store.new dollar))
    (by rintro v w ⟨rfl, _⟩; rfl) L (parseO L) b b
    (sameShape_self (fun v hv => ⟨rfl, hv⟩) b ht hv) log
    (sem L (parseO L) (badFor (Store.new dollar)) b log).2
  obtain ⟨hr, δ, δ', hl1, hl2, hp⟩ := hrel
  have hδ : δ = δ' := (hp.mono fun a b h => h.1).eq
  subst hδ
  have hself : ∀ v ∈ δ, v.goEq v = true := hp.left fun _ _ h => h.2
  rcases e1 : sem L (parseO L) (badFor (Store.new dollar)) b log with ⟨r1, log1⟩
  rw [e1] at h2 h4 h5 hl1 hl2 hr
  dsimp only at h2 h4 h5 hl1 hl2 hr
  subst hl1
  cases r1 with
  | ok d1 =>
    obtain ⟨ht1, hir⟩ := h5
    rw [commitAll_append, hs] at h2
    simp only [Option.bind_some] at h2
    cases hc : commitAll s.store δ with
    | none => rw [hc] at h2; cases h2
    | some r =>
      obtain ⟨qs, st⟩ := r
      rw [hc] at h2
      simp only [Option.map_some, Option.some.injEq, Prod.mk.injEq] at h2
      obtain ⟨rfl, rfl⟩ := h2
      have hinv : s.store.Inv := commitAll_inv (Store.new_inv dollar) hs
      have hd : s.store.isDollar = true := (commitAll_prefix hs).2
      have hre : commitAll st δ = some (qs, st) := by
        refine recommit (commitAll_inv hinv hc) ((commitAll_prefix hc).2.trans hd)
          (commitAll_length hc) (commitAll_hashable hd hc) fun i v hiv => ?_
        obtain ⟨k, w, hp, hw, he⟩ := commitAll_resolve hinv hd hc i v hiv
        refine ⟨k, w, hp, hw, ?_⟩
        rcases he with rfl | he
        · exact hself _ (List.mem_of_getElem? hiv)
        · exact he
      have hs1 : commitAll (Store.new dollar) (log ++ δ) = some (ps ++ qs, s'.store) := by
        rw [commitAll_append, hs, hs']
        simp [hc]
      obtain ⟨ps2, st2, o2, g1, g2, g3, g4, g5⟩ := buildsTo_tree L ht (onlyBuiltins_iff hb) _ hs1
      rw [hl2, commitAll_append, hs1] at g2
      rw [hs'] at g2
      simp only [Option.bind_some, hre, Option.map_some, Option.some.injEq, Prod.mk.injEq] at g2
      obtain ⟨rfl, rfl⟩ := g2
      revert g5 hr
      generalize (sem L (parseO L) (badFor (Store.new dollar)) b (log ++ δ)).1 = r2
      intro hr g5
      cases r2 with
      | ok d2 =>
        obtain ⟨e, rfl, rfl⟩ := hr
        cases o2 with
        | ok t2 =>
          have hlen : ps.length = log.length := commitAll_length hs
          have hlen2 : (ps ++ qs).length = (log ++ δ).length := by
            simp [hlen, commitAll_length hc]
          have : t2 = t := by
            rw [g5.1, ht1, ← hlen, ← hlen2, renderDoc_shift, renderDoc_shift]
          subst this
          have hst : ({ s' with store := st } : St) = s' := by rw [hs']
          rw [hst] at g1
          exact g1
        | err e => exact g5.elim
        | panic e => exact g5.elim
        | oof => exact g5.elim
      | invalidIndex => exact hr.elim
      | error => exact hr.elim
      | panic => exact hr.elim
  | invalidIndex => exact h5.elim
  | error => exact h5.elim
  | panic => exact h5.elim

example : AllVals (fun v => GoEqual v v) sampleTree := by
  rw [goEqual_self_fun]
  simp [sampleTree, AllVals, AllValsF, AllValsL, Fragment.F]; decide

/-- The condition is needed: `NaN` is not equal to itself and gets a new placeholder. -/
example (L : GoLib) : (run L 20 rootCtx (.build (.frag (.Ff (lit "#f1 #f1")
    [.frag (.Fa (lit "?") [.float 64 ⟨true, 0, 0⟩])]))) (St.init dollar [])).1 = .ok (lit "$1 $2") := by
  kernel_rfl

end Sqlf.Props
