import Verif.Proofs.SwapRun
import Verif.Proofs.DocText
import Verif.Proofs.Plain
import Verif.Spec.QueryShape
import Verif.KernelRfl
/-!
# C98: equal parts are interchangeable
-/

namespace Sqlf.Props

open Sqlf Spec

private theorem swappedQuery_qb {E : Builder → Builder → Prop} {b b' : QB} (h : SwappedQuery E b b') : QBSwap E b b' := by
  obtain ⟨cs, cs', h1, h2, h3⟩ := h
  obtain ⟨d', h4, h5⟩ := runCalls_swap (qbSwap_refl QB.new) h3 h1
  rw [h2] at h4
  cases h4
  exact h5

private theorem swappedQueries {E : Builder → Builder → Prop} {heap heap' : List QB} (h : Pointwise (SwappedQuery E) heap heap') :
    Pointwise (QBSwap E) heap heap' := by
  induction h with
  | nil => exact .nil
  | cons h _ ih => exact .cons (swappedQuery_qb h) ih

private theorem build_swap {L : GoLib} {E : Builder → Builder → Prop} (hE : ∀ b c, E b c → Replaces L b c) {b b' : Builder}
    (hb : Swapped E b b') {heap heap' : List QB} (hh : Pointwise (QBSwap E) heap heap') {style : Style} {r : Out Str × St}
    (h : BuildsTo L rootCtx b (St.init style heap) r) :
    ∃ r', BuildsTo L rootCtx b' (St.init style heap') r' ∧ queryOut r = queryOut r' ∧ Pointwise (QBSwap E) r.2.heap r'.2.heap := by
  obtain ⟨hne, N, hN⟩ := h
  have hN := hN N (Nat.le_refl _)
  obtain ⟨r', hS, h1, h2⟩ := run_swap L hE N _ _ (.build b) (.build b') (ctx_same E) (.build hb) (St.init style heap)
    (St.init style heap') ⟨rfl, rfl, rfl, hh, rfl⟩ (by rw [hN]; exact hne)
  rw [hN] at h1 h2
  have hq : r'.1 ≠ .oof ∧ queryOut r = queryOut r' := by
    rcases h1.cases' hne with ⟨a, b, e, e', hq⟩ | ⟨x, e, e'⟩ | ⟨x, e, e'⟩
    · rw [e, e']; exact ⟨by simp, by unfold queryOut; simp only [hq, h2.store]⟩
    · rw [e, e']; exact ⟨by simp, rfl⟩
    · rw [e, e']; exact ⟨by simp, rfl⟩
  exact ⟨r', ⟨hq.1, hS⟩, hq.2, h2.heap⟩

/-- **C98** Builders can be replaced by builders that build the same: if, anywhere in a builder — in its fragments, below
columns, in user code — and in the calls that made its query builders, builders are replaced by builders that build to
the same in every context and state and refer to the same tables, then the outcome of the build is the same. -/
theorem C98_parts_can_be_replaced (L : GoLib) (E : Builder → Builder → Prop) (hE : ∀ b c, E b c → Replaces L b c)
    (b b' : Builder) (hb : Swapped E b b') (heap heap' : List QB) (hh : Pointwise (SwappedQuery E) heap heap')
    (style : Style) (o : Out (Str × List Val)) (h : Returns L b style heap o) : Returns L b' style heap' o := by
  obtain ⟨r, h1, rfl⟩ := returns_iff_buildsTo.1 h
  obtain ⟨r', h2, h3, -⟩ := build_swap hE hb (swappedQueries hh) h1
  exact returns_iff_buildsTo.2 ⟨r', h2, h3⟩

private theorem series_swap {L : GoLib} {E : Builder → Builder → Prop} (hE : ∀ b c, E b c → Replaces L b c)
    {jobs jobs' : List (Builder × Style)} (hj : Pointwise (fun j j' => Swapped E j.1 j'.1 ∧ j.2 = j'.2) jobs jobs')
    {heap heap' : List QB} (hh : Pointwise (QBSwap E) heap heap') {os : List (Out (Str × List Val))}
    (h : Series L heap jobs os) : Series L heap' jobs' os := by
  induction h generalizing jobs' heap' with
  | nil => cases hj; exact .nil _
  | @cons heap b style o ctx r s jobs os h hc hb hs ih =>
    cases hj with
    | @cons _ j' _ jobs' hj hjs =>
      obtain ⟨b', style'⟩ := j'
      obtain ⟨hj, rfl⟩ := hj
      rw [newContext_eq] at hc
      cases hc
      obtain ⟨r', h2, h3, h4⟩ := build_swap hE hj hh hb
      obtain ⟨r1, h7, rfl⟩ := returns_iff_buildsTo.1 h
      cases buildsTo_unique h7 hb
      exact .cons (returns_iff_buildsTo.2 ⟨r', h2, h3⟩) (newContext_eq L) (r := r'.1) (s := r'.2) h2 (ih hjs h4)

/-- **C98** The same for any series of builds that share query builders, each of which finds the query builders as
the earlier builds left them. -/
theorem C98_parts_can_be_replaced_later (L : GoLib) (E : Builder → Builder → Prop) (hE : ∀ b c, E b c → Replaces L b c)
    (jobs jobs' : List (Builder × Style)) (hj : Pointwise (fun j j' => Swapped E j.1 j'.1 ∧ j.2 = j'.2) jobs jobs')
    (heap heap' : List QB) (hh : Pointwise (SwappedQuery E) heap heap') (os : List (Out (Str × List Val)))
    (h : Series L heap jobs os) : Series L heap' jobs' os :=
  series_swap hE hj (swappedQueries hh) h

/-! ## Builders that replace each other -/

private theorem trim_mark {t : Str} (h : Mark t) : trimSpace t = t := by
  unfold trimSpace
  have h1 : trimLeft t = t := trimLeft_append [] t h.head
  have h2 : trimRight t = t := by
    have : trimRight (t ++ []) = t ++ [] := trimRight_append t [] h.last
    rwa [List.append_nil] at this
  rw [h1, h2]

private theorem commitArg_ne (v : Val) (s : St) : (commitArg v s).1 ≠ .oof := by
  unfold commitArg
  cases s.store.commit v <;> simp

private theorem code_arg (L : GoLib) (ctx : Ctx) (v : Val) (s : St) :
    BuildsTo L ctx (.custom (.commit v .ret)) s (commitArg v s) := by
  refine buildsTo_of_run (n := 1) ?_ (commitArg_ne v s)
  show M.bind (commitArg v) (fun t => runProg L (run L 0) ctx (.ret t)) s = commitArg v s
  unfold M.bind
  rcases h : commitArg v s with ⟨o, s1⟩
  cases o <;> rfl

private theorem lone_arg (L : GoLib) (ctx : Ctx) (raw : Str) (st : Style) (hp : parse L raw = .ok [.bindVar st 1]) (v : Val)
    (s : St) : BuildsTo L ctx (.frag (.Fa raw [v])) s (commitArg v s) := by
  have he : evalExpr L (run L 0) 0 (ctx.withFragment (.Fa raw [v])) (.bindVar st 1) s.fresh =
      commitArg v { s with usedA := [0], usedF := [] } := rfl
  refine buildsTo_of_run (n := 1) ?_ (commitArg_ne v s)
  show buildFragment L (run L 0) 0 ctx (.Fa raw [v]) s = commitArg v s
  unfold commitArg at he ⊢
  dsimp only at he
  cases hc : s.store.commit v with
  | none =>
    rw [hc] at he
    have h1 : buildBody L (run L 0) 0 (ctx.withFragment (.Fa raw [v])) (.Fa raw [v]) s.fresh =
        (.panic .unhashableKey, { s with usedA := [0], usedF := [] }) := by
      unfold buildBody
      rw [show (Fragment.Fa raw [v]).raw = raw from rfl, hp]
      refine bind_of_panic ?_
      unfold M.wrapErr buildClause
      rw [bind_of_panic he]
    show ((buildBody L (run L 0) 0 (ctx.withFragment (.Fa raw [v])) (.Fa raw [v]) s.fresh).1,
      setUsed (buildBody L (run L 0) 0 (ctx.withFragment (.Fa raw [v])) (.Fa raw [v]) s.fresh).2 s.usedA s.usedF) = _
    rw [h1]
    rfl
  | some x =>
    obtain ⟨t, st'⟩ := x
    rw [hc] at he
    have ht := trim_mark (commit_mark hc)
    refine buildFragment_ok.2 ⟨_, t, { s with store := st', usedA := [0], usedF := [] }, hp, ?_, ?_, rfl, rfl⟩
    · unfold buildClause
      rw [bind_of_ok he, bind_of_ok (by rfl : buildClause L (run L 0) 0 (ctx.withFragment (.Fa raw [v])) [] _ = (.ok [], _))]
      simp [M.pure]
    · show t = decorate [] [] t
      simp [decorate, ht]

/-- Builders that build to the same, with an outcome given by a function. -/
private theorem replaces_of {L : GoLib} {b c : Builder} (f : Ctx → St → Out Str × St)
    (hb : ∀ ctx s, BuildsTo L ctx b s (f ctx s)) (hc : ∀ ctx s, BuildsTo L ctx c s (f ctx s)) (ht : tableRefs b = tableRefs c)
    (hn : noNil b = noNil c) : Replaces L b c ∧ Replaces L c b :=
  ⟨⟨fun ctx s r h => buildsTo_unique (hb ctx s) h ▸ hc ctx s, ht, hn⟩,
    ⟨fun ctx s r h => buildsTo_unique (hc ctx s) h ▸ hb ctx s, ht.symm, hn.symm⟩⟩

/-- **C98** A fragment that is one argument can be written with `?` and with `$1`, and its place can be taken by user
code that commits the argument. -/
theorem C98_one_argument (L : GoLib) (v : Val) :
    (Replaces L (.frag (.Fa (lit "?") [v])) (.frag (.Fa (lit "$1") [v])) ∧
      Replaces L (.frag (.Fa (lit "$1") [v])) (.frag (.Fa (lit "?") [v]))) ∧
    (Replaces L (.frag (.Fa (lit "?") [v])) (.custom (.commit v .ret)) ∧
      Replaces L (.custom (.commit v .ret)) (.frag (.Fa (lit "?") [v]))) := by
  have h1 : ∀ ctx s, BuildsTo L ctx (.frag (.Fa (lit "?") [v])) s (commitArg v s) := fun ctx s =>
    lone_arg L ctx _ question (by kernel_rfl) v s
  have h2 : ∀ ctx s, BuildsTo L ctx (.frag (.Fa (lit "$1") [v])) s (commitArg v s) := fun ctx s =>
    lone_arg L ctx _ dollar (by kernel_rfl) v s
  exact ⟨replaces_of (fun _ => commitArg v) h1 h2 rfl rfl,
    replaces_of (fun _ => commitArg v) h1 (fun ctx s => code_arg L ctx v s) rfl rfl⟩

/-- **C98** A fragment of plain text can be replaced by user code that returns the text. -/
theorem C98_plain_text (L : GoLib) (raw : Str) (h0 : 0 ∉ raw) (es : List Expr) (hp : parse L raw = .ok es)
    (ha : ∀ e ∈ es, ∃ t, e = .plain t) :
    Replaces L (.frag (.F raw)) (.custom (.ret (trimSpace raw))) ∧ Replaces L (.custom (.ret (trimSpace raw))) (.frag (.F raw)) := by
  refine replaces_of (fun _ s => (.ok (trimSpace raw), s)) (fun ctx s => ?_) (fun ctx s => ?_) rfl rfl
  · refine buildsTo_iff.2 ⟨by simp, ?_⟩
    have := fragment_plain (ctx := ctx) hp ha s
    rw [plainText_eq h0 hp ha] at this
    exact this
  · exact buildsTo_of_run (n := 1) rfl (by simp)

/-- **C98** A column without table can be replaced by its expression, and the expression by a column. -/
theorem C98_expression_column (L : GoLib) (f : Fragment) :
    Replaces L (.column [] f) (.frag f) ∧ Replaces L (.frag f) (.column [] f) := by
  obtain ⟨raw, args, fs, pre, suf⟩ := f
  exact ⟨⟨fun ctx s r h => (column_eq_frag L ctx [] _ s r).1 h, by simp [tableRefs], by simp [noNil]⟩,
    ⟨fun ctx s r h => (column_eq_frag L ctx [] _ s r).2 h, by simp [tableRefs], by simp [noNil]⟩⟩

/-- User code that does nothing but build another builder, and returns what comes out. -/
def justBuilds (b : Builder) : Builder :=
  .custom (.build b fun r => match r with
    | .ok t => .ret t
    | .error e => .fail e)

/-- **C98** A builder that refers to no table can be wrapped in user code that does nothing but build it, and
unwrapped. -/
theorem C98_wrapped_in_code (L : GoLib) (b : Builder) (ht : tableRefs b = []) (hn : noNil b = true) :
    Replaces L b (justBuilds b) ∧ Replaces L (justBuilds b) b := by
  have hw : ∀ n ctx s, run L (n + 1) ctx (.build (justBuilds b)) s = run L n ctx (.build b) s := by
    intro n ctx s
    show runProg L (run L n) ctx (.build b _) s = _
    simp only [runProg]
    rcases run L n ctx (.build b) s with ⟨o, s1⟩
    cases o <;> rfl
  refine ⟨⟨fun ctx s r h => ?_, ht, hn⟩, ⟨fun ctx s r h => ?_, ht.symm, hn.symm⟩⟩
  · obtain ⟨hne, N, h⟩ := h
    exact buildsTo_of_run (n := N + 1) ((hw N ctx s).trans (h N (Nat.le_refl _))) hne
  · obtain ⟨hne, N, h⟩ := h
    exact buildsTo_of_run (n := N) ((hw N ctx s).symm.trans (h (N + 1) (by omega))) hne

/-- What replaces what in the examples. -/
private inductive SwapEx (v : Val) : Builder → Builder → Prop
  | arg : SwapEx v (.frag (.Fa (lit "?") [v])) (.custom (.commit v .ret))
  | column : SwapEx v (.column [] (.F (lit "COUNT(1)"))) (justBuilds (.frag (.F (lit "COUNT(1)"))))

private theorem swapEx_replaces (L : GoLib) (v : Val) : ∀ b c, SwapEx v b c → Replaces L b c
  | _, _, .arg => (C98_one_argument L v).2.1
  | _, _, .column =>
    ⟨fun ctx s r h => (C98_wrapped_in_code L _ rfl rfl).1.builds ctx s r ((C98_expression_column L _).1.builds ctx s r h), rfl, rfl⟩

private def swapTree (b : Builder) : Builder :=
  .frag (.mk (lit "a = #f1 AND b IN (#f2) AND c = $1 AND #f3") [.int 1 1] [b, .qb 0, .custom (.build b fun r => match r with
    | .ok t => .ret (t ++ lit " > 0")
    | .error e => .fail e)] [] [])

/-- `ExprColumn(Ff("#f1", b))`: anything as a column. -/
private def asColumn (b : Builder) : Builder := .column [] (.mk (lit "#f1") [] [b] [] [])

private def swapCalls (c b : Builder) : List Call :=
  [.select [asColumn c, tableColumn (lit "t") (lit "id")], .from_ ⟨lit "t", []⟩, .where2 (asColumn b) (lit "=") (.int 1 2),
    .orderBy (asColumn c) 0]

private def swapQB (c b : Builder) : QB := match runCalls QB.new (swapCalls c b) with | .ok b => b | _ => QB.new

/-- In a template, in user code, and in a query builder at once. -/
example (L : GoLib) (v : Val) (hv : v = .int 1 7) :
    (∀ b c, SwapEx v b c → Replaces L b c) ∧
    Swapped (SwapEx v) (swapTree (.frag (.Fa (lit "?") [v]))) (swapTree (.custom (.commit v .ret))) ∧
    Pointwise (SwappedQuery (SwapEx v)) [swapQB (.column [] (.F (lit "COUNT(1)"))) (.frag (.Fa (lit "?") [v]))]
      [swapQB (justBuilds (.frag (.F (lit "COUNT(1)")))) (.custom (.commit v .ret))] ∧
    Returns L (swapTree (.custom (.commit v .ret))) dollar
      [swapQB (justBuilds (.frag (.F (lit "COUNT(1)")))) (.custom (.commit v .ret))]
      (.ok (lit "a = $1 AND b IN (SELECT COUNT(1), t.id FROM t WHERE $1=$2 ORDER BY COUNT(1) ASC) AND c = $3 AND $1 > 0", [v, .int 1 2, .int 1 1])) := by
  subst hv
  refine ⟨swapEx_replaces L _, ?_, .cons ⟨swapCalls _ _, swapCalls _ _, rfl, rfl, ?_⟩ .nil,
    returns_of_buildQuery (n := 100) (by kernel_rfl) (by simp)⟩
  · refine .frag (.mk (.cons (.swap .arg) (.cons (.qb 0) (.cons (.custom (.build (.swap .arg) fun r => ?_)) .nil))))
    cases r with
    | ok t => exact .ret _
    | error e => exact .fail e
  · exact .cons (.select (.cons (.column (.mk (.cons (.swap .column) .nil))) (.cons (swapped_refl _) .nil))) (.cons (.same _)
      (.cons (.where2 _ _ (.column (.mk (.cons (.swap .arg) .nil))))
        (.cons (.orderBy _ (.column (.mk (.cons (.swap .column) .nil)))) .nil)))

/-- Why the tables must be the same: a column builds to what its expression builds to, but here its table is the only
reason to keep a join. -/
private def joined (c : Builder) : QB :=
  match runCalls QB.new [.distinct, .select [c], .from_ ⟨lit "t", []⟩, .leftJoinOptional ⟨lit "u", []⟩ (some (.F (lit "u.id = t.id")))] with
  | .ok b => b
  | _ => QB.new

theorem C98_tables_must_agree (L : GoLib) :
    (∀ ctx s r, BuildsTo L ctx (.column (lit "u") (.F (lit "u.x"))) s r ↔ BuildsTo L ctx (.column [] (.F (lit "u.x"))) s r) ∧
    Returns L (.qb 0) question [joined (.column (lit "u") (.F (lit "u.x")))]
      (.ok (lit "SELECT DISTINCT u.x FROM t LEFT JOIN u ON u.id = t.id", [])) ∧
    Returns L (.qb 0) question [joined (.column [] (.F (lit "u.x")))] (.ok (lit "SELECT DISTINCT u.x FROM t", [])) :=
  ⟨fun ctx s r => (column_eq_frag L ctx _ _ s r).trans (column_eq_frag L ctx _ _ s r).symm, returns_of_buildQuery (n := 100) (by kernel_rfl) (by simp),
    returns_of_buildQuery (n := 100) (by kernel_rfl) (by simp)⟩

end Sqlf.Props
