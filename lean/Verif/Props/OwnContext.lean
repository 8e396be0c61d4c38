import Verif.Props.Query
import Verif.Proofs.Threads
import Verif.Proofs.AnyCtx
import Verif.KernelRfl
/-!
# C102: user code that calls BuildQuery

`.query style b k` in user code: it calls `b.BuildQuery(style)`, and goes on with what it returns, `k`.
-/

namespace Sqlf.Props

open Spec

/-- What user code does after `BuildQuery` gave `o`: it goes on with the result or the error; a panic goes through. -/
def GoesOn (L : GoLib) (ctx : Ctx) (k : Except Err (Str × List Val) → Prog) (o : Out (Str × List Val)) (s : St) (r : Out Str × St) : Prop :=
  match o with
  | .ok q => BuildsTo L ctx (.custom (k (.ok q))) s r
  | .err e => BuildsTo L ctx (.custom (k (.error e))) s r
  | .panic p => r = (.panic p, s)
  | .oof => False

private theorem run_custom_own (L : GoLib) (n : Nat) (ctx : Ctx) (p : Prog) :
    run L (n + 1) ctx (.build (.custom p)) = runProg L (run L n) ctx p := rfl

private theorem buildsTo_iff_of {L : GoLib} {ctx : Ctx} {p q : Prog} {s s' : St} {N : Nat}
    (h : ∀ n, N ≤ n → runProg L (run L n) ctx p s = runProg L (run L n) ctx q s') (r : Out Str × St) :
    BuildsTo L ctx (.custom p) s r ↔ BuildsTo L ctx (.custom q) s' r := by
  constructor <;> rintro ⟨h1, M, h2⟩ <;> refine ⟨h1, N + M + 1, fun n hn => ?_⟩ <;>
    obtain ⟨n, rfl⟩ : ∃ m, n = m + 1 := ⟨n - 1, by omega⟩
  · rw [run_custom_own, ← h n (by omega), ← run_custom_own, h2 _ (by omega)]
  · rw [run_custom_own, h n (by omega), ← run_custom_own, h2 _ (by omega)]

private theorem query_iff {L : GoLib} {ctx : Ctx} {style : Style} {b : Builder} {k : Except Err (Str × List Val) → Prog} {s : St}
    {r1 : Out Str × St} (h : BuildsTo L rootCtx b { s with store := .new style, usedA := [], usedF := [] } r1) (r : Out Str × St) :
    BuildsTo L ctx (.custom (.query style b k)) s r ↔
      GoesOn L ctx k (queryOut r1) { r1.2 with store := s.store, usedA := s.usedA, usedF := s.usedF } r := by
  obtain ⟨hne, N, hN⟩ := h
  have e : ∀ n, N ≤ n → runProg L (run L n) ctx (.query style b k) s =
      M.bind (withOwnStore style fun _ => r1) (fun r => runProg L (run L n) ctx (k r)) s := by
    intro n hn
    rw [runProg, newContext_eq]
    dsimp only
    unfold M.bind withOwnStore
    rw [hN n hn]
  obtain ⟨o, s1⟩ := r1
  cases o with
  | ok t => exact buildsTo_iff_of (N := N) (fun n hn => by rw [e n hn]; rfl) r
  | err x => exact buildsTo_iff_of (N := N) (fun n hn => by rw [e n hn]; rfl) r
  | panic p =>
    have h0 : BuildsTo L ctx (.custom (.query style b k)) s (.panic p, { s1 with store := s.store, usedA := s.usedA, usedF := s.usedF }) := by
      refine ⟨by simp, N + 1, fun n hn => ?_⟩
      obtain ⟨n, rfl⟩ : ∃ m, n = m + 1 := ⟨n - 1, by omega⟩
      rw [run_custom_own, e n (by omega)]
      rfl
    constructor
    · rintro ⟨h1, M, h2⟩
      obtain ⟨-, M', h3⟩ := h0
      show r = _
      rw [← h2 (max M M') (by omega), h3 (max M M') (by omega)]
    · intro h
      cases (show r = _ from h)
      exact h0
  | oof => exact absurd rfl hne

private theorem eq_of_heapRel {h h' : List QB} (e : HeapRel Eq h h') : h' = h := by
  refine List.ext_getElem? fun i => ?_
  cases hi : h[i]? with
  | none => exact e.none i hi
  | some b =>
    obtain ⟨b', h1, rfl⟩ := e.some i b hi
    exact h1

/-! ## C102 -/

/-- **C102** User code may call `BuildQuery` at any point of a build, in any context: it gets what `BuildQuery` returns
anywhere else for the query builders as they are, and the arguments and the flags of the build around it are as they
were.  Only the query builders may have changed, as `BuildQuery` changes them (and what was printed). -/
theorem C102_nested_query (L : GoLib) (ctx : Ctx) (style : Style) (b : Builder) (k : Except Err (Str × List Val) → Prog) (s : St)
    (o : Out (Str × List Val)) (heap' : List QB) (h : ReturnsLeaving L b style s.heap o heap') :
    ∃ log, ∀ r, BuildsTo L ctx (.custom (.query style b k)) s r ↔ GoesOn L ctx k o { s with heap := heap', log := log } r := by
  obtain ⟨hne, N, hN⟩ := h
  have h1 := hN N (Nat.le_refl _)
  rw [buildQueryS_eq] at h1
  have hsim := (run_both eq_qbRel L N rootCtx (.build b)).out (St.init style s.heap)
    { s with store := .new style, usedA := [], usedF := [] } ⟨rfl, rfl, rfl, heapRel_eq rfl⟩
  obtain ⟨h2, h3⟩ := h1
  dsimp only at h2 h3
  have hne1 : (run L N rootCtx (.build b) { s with store := .new style, usedA := [], usedF := [] }).1 ≠ .oof := by
    rw [hsim.1, Ne, ← queryOut_oof, h2]
    exact hne
  have hq : queryOut (run L N rootCtx (.build b) { s with store := .new style, usedA := [], usedF := [] }) = o := by
    rw [← h2]
    obtain ⟨hs1, hs2⟩ := hsim
    revert hs1 hs2
    rcases run L N rootCtx (.build b) (St.init style s.heap) with ⟨o1, t1⟩
    rcases run L N rootCtx (.build b) { s with store := .new style, usedA := [], usedF := [] } with ⟨o2, t2⟩
    intro hs1 hs2
    cases hs1
    cases o1 <;> simp only [queryOut]
    rw [hs2.store]
  have hheap : (run L N rootCtx (.build b) { s with store := .new style, usedA := [], usedF := [] }).2.heap = heap' := by
    rw [← h3]
    exact eq_of_heapRel hsim.2.heap
  refine ⟨(run L N rootCtx (.build b) { s with store := .new style, usedA := [], usedF := [] }).2.log, fun r => ?_⟩
  rw [query_iff (buildsTo_of_run rfl hne1) r, hq, ← hheap]

/-- A query with two parts and an argument. -/
private def inner : Builder := .frag (.mk (lit "id = $1 OR #f1") [.int 1 7] [.table (lit "t.ok")] [] [])

/-- A state with an argument, with flags and with a query builder. -/
example (L : GoLib) : ∃ s : St, s.store.args = [.int 1 9] ∧ s.usedA = [0] ∧
    ReturnsLeaving L inner dollar s.heap (.ok (lit "id = $1 OR t.ok", [.int 1 7])) (buildQueryS L 50 inner dollar s.heap).2.heap :=
  ⟨{ store := ⟨true, [.int 1 9], [(.int 1 9, 1)]⟩, usedA := [0], usedF := [], heap := [], log := [] }, rfl, rfl,
   returnsLeaving_of (n := 50) (by kernel_rfl) (by simp)⟩

/-- A query builder that is changed by being built. -/
private def ownQB : QB :=
  match runCalls QB.new [.select [tableColumn (lit "u") (lit "name")], .distinct, .from_ ⟨lit "users", lit "u"⟩,
    .orderBy (tableColumn (lit "u") (lit "id")) 3] with | .ok b => b | _ => QB.new

/-- It has one more column after it. -/
example (L : GoLib) : ReturnsLeaving L (.qb 0) dollar [ownQB]
      (.ok (lit "SELECT DISTINCT u.name, u.id AS _order_1 FROM users AS u ORDER BY _order_1 DESC", []))
      (buildQueryS L 100 (.qb 0) dollar [ownQB]).2.heap ∧
    ((buildQueryS L 100 (.qb 0) dollar [ownQB]).2.heap[0]?.map fun b => b.touches.frags.length) = some (ownQB.touches.frags.length + 1) :=
  ⟨returnsLeaving_of (n := 100) (by kernel_rfl) (by simp), by kernel_rfl⟩

/-- User code that calls `BuildQuery` and gives the text to the build around it, the arguments left out. -/
def textOnly : Except Err (Str × List Val) → Prog
  | .ok (t, _) => .ret t
  | .error e => .fail e

/-- **C102** The arguments of a query built by user code with `BuildQuery` are not arguments of the query around it: a
custom builder that returns only the text builds to this text, without arguments, in every style. -/
theorem C102_arguments_stay_inside (L : GoLib) (style outer : Style) (b : Builder) (heap : List QB) (o : Out (Str × List Val))
    (h : Returns L b style heap o) :
    Returns L (.custom (.query style b textOnly)) outer heap
      (match o with | .ok (t, _) => .ok (t, []) | .err e => .err e | .panic p => .panic p | .oof => .oof) := by
  obtain ⟨r1, h1, rfl⟩ := returns_iff_buildsTo.1 h
  have hR : ReturnsLeaving L b style (St.init outer heap).heap (queryOut r1) r1.2.heap := by
    obtain ⟨hne, N, hN⟩ := h1
    refine ⟨by rw [Ne, queryOut_oof]; exact hne, N, fun n hn => ?_⟩
    rw [buildQueryS_eq]
    have := hN n hn
    show queryOut (run L n rootCtx (.build b) (St.init style heap)) = _ ∧ (run L n rootCtx (.build b) (St.init style heap)).2.heap = _
    rw [this]
    exact ⟨rfl, rfl⟩
  obtain ⟨log, hlog⟩ := C102_nested_query L rootCtx style b textOnly (St.init outer heap) _ _ hR
  refine returns_iff_buildsTo.2 ?_
  obtain ⟨o, s1⟩ := r1
  cases o with
  | ok t =>
    refine ⟨(.ok t, { St.init outer heap with heap := s1.heap, log := log }), (hlog _).2 ?_, rfl⟩
    exact buildsTo_of_run (n := 1) rfl (by simp)
  | err e =>
    refine ⟨(.err e, { St.init outer heap with heap := s1.heap, log := log }), (hlog _).2 ?_, rfl⟩
    exact buildsTo_of_run (n := 1) rfl (by simp)
  | panic p => exact ⟨(.panic p, { St.init outer heap with heap := s1.heap, log := log }), (hlog _).2 rfl, rfl⟩
  | oof => exact absurd rfl h1.1

/-- The placeholder of the inner query now means the argument of the outer one: the numbers start over. -/
example (L : GoLib) : Returns L inner dollar [] (.ok (lit "id = $1 OR t.ok", [.int 1 7])) ∧
    Returns L (.frag (.mk (lit "x = $1 AND #f1") [.int 1 9] [.custom (.query dollar inner textOnly)] [] [])) dollar []
      (.ok (lit "x = $1 AND id = $1 OR t.ok", [.int 1 9])) :=
  ⟨returns_of_buildQuery (n := 50) (by kernel_rfl) (by simp), returns_of_buildQuery (n := 50) (by kernel_rfl) (by simp)⟩

/-- User code that calls `BuildQuery`, commits the arguments one by one and returns the text. -/
def byHand : Except Err (Str × List Val) → Prog
  | .ok (t, vs) => vs.foldr (fun v p => .commit v fun _ => p) (.ret t)
  | .error e => .fail e

private theorem commit_each (L : GoLib) (rec : Rec) (ctx : Ctx) (t : Str) (vs : List Val) (s : St) (hs : s.store.isDollar = false) :
    runProg L rec ctx (vs.foldr (fun v p => .commit v fun _ => p) (.ret t)) s =
      (.ok t, { s with store := { s.store with args := s.store.args ++ vs } }) := by
  induction vs generalizing s with
  | nil => simp [runProg, M.pure]
  | cons v vs ih =>
    rw [List.foldr_cons, runProg]
    have hc : commitArg v s = (.ok (lit "?"), { s with store := { s.store with args := s.store.args ++ [v] } }) := by
      unfold commitArg Store.commit
      simp [hs]
    unfold M.bind
    rw [hc]
    dsimp only
    rw [ih _ (by exact hs)]
    simp

/-- **C102** Where placeholders are `?`, user code that calls `BuildQuery` and commits the arguments it returns does what
building in the context does: same text, same arguments. -/
theorem C102_by_hand (L : GoLib) (b : Builder) (ht : IsTree b) (ctx : Ctx) (hctx : OnlyBuiltins L ctx) (s : St)
    (hs : s.store.isDollar = false) (style : Style) (hstyle : style ≠ dollar) (q : Str) (vs : List Val)
    (h : Returns L b style s.heap (.ok (q, vs))) :
    ∃ s', BuildsTo L ctx b s (.ok q, s') ∧ BuildsTo L ctx (.custom (.query style b byHand)) s (.ok q, s') ∧
      s'.store.args = s.store.args ++ vs := by
  obtain ⟨d, log, ps, st, h1, h2, h3, rfl, rfl⟩ := returns_ok ht h
  have hd : (Store.new style).isDollar = false := by simp [Store.new, hstyle]
  rw [commitAll_question log _ hd] at h2
  simp only [Option.some.injEq, Prod.mk.injEq] at h2
  obtain ⟨rfl, rfl⟩ := h2
  have hbad : ∀ s0 : Store, s0.isDollar = false → sem L (parseO L) (badFor s0) b [] = (.ok d, log) := by
    intro s0 h0
    have e : badFor s0 = cannotCommit style := by
      rw [← badFor_new]
      funext v
      unfold badFor
      rw [h0, hd]
    rw [e, ← h1]
    rfl
  have build : ∀ (c : Ctx) (t : St), BuiltinCtx c → t.store.isDollar = false →
      BuildsTo L c b t (.ok (renderDoc (List.replicate log.length (lit "?")) d), { t with store := { t.store with args := t.store.args ++ log } }) := by
    intro c t hc ht0
    obtain ⟨ps', st', o, g1, g2, -, -, g5⟩ := buildsTo_tree L ht hc t.store (ps := []) (s := t) (log := []) rfl
    rw [hbad _ ht0] at g2 g5
    rw [commitAll_question log _ ht0] at g2
    simp only [Option.some.injEq, Prod.mk.injEq] at g2
    obtain ⟨rfl, rfl⟩ := g2
    cases o with
    | ok t' => rw [← g5.1]; exact g1
    | err e => exact g5.elim
    | panic p => exact g5.elim
    | oof => exact g5.elim
  refine ⟨_, build ctx s (onlyBuiltins_iff hctx) hs, ?_, ?_⟩
  · refine (query_iff (build rootCtx { s with store := .new style, usedA := [], usedF := [] } rootCtx_builtin hd) _).2 ?_
    refine buildsTo_of_run (n := 1) ?_ (by simp)
    rw [run_custom_own]
    show runProg L _ ctx (List.foldr _ _ _) _ = _
    rw [commit_each L _ ctx _ _ _ hs]
    simp [Store.new]
  · simp [Store.new]

/-- The condition is fulfilled by an ordinary fragment in the middle of an ordinary build. -/
example (L : GoLib) : IsTree inner ∧ OnlyBuiltins L rootCtx ∧
    (∃ s : St, s.store.isDollar = false ∧ s.store.args = [.int 1 9] ∧
      Returns L inner question s.heap (.ok (lit "id = ? OR t.ok", [.int 1 7]))) ∧
    Returns L (.frag (.mk (lit "x = ? AND #f1") [.int 1 9] [.custom (.query question inner byHand)] [] [])) question []
      (.ok (lit "x = ? AND id = ? OR t.ok", [.int 1 9, .int 1 7])) :=
  ⟨by simp [inner, IsTree, IsTreeF, IsTreeL], rootCtx_onlyBuiltins L,
   ⟨{ store := ⟨false, [.int 1 9], []⟩, usedA := [], usedF := [], heap := [], log := [] }, rfl, rfl,
    returns_of_buildQuery (n := 50) (by kernel_rfl) (by simp)⟩,
   returns_of_buildQuery (n := 50) (by kernel_rfl) (by simp)⟩

end Sqlf.Props
