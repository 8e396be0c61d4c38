import Verif.Proofs.Halting
import Verif.Proofs.Schedules
import Verif.Props.Again
import Verif.KernelRfl
/-!
# C114: building queries returns
-/

namespace Sqlf.Props

open Spec

/-- **C114** Building anything returns, when no query builder contains itself and the functions that user code
adds are tame: any fragments, templates, columns, query builders nested in any depth, and user code that builds them.  The build may be an
error or a panic; it always ends, and what it leaves can be built again. -/
theorem C114_building_queries_returns (L : GoLib) (b : Builder) (heap : List QB) (hh : NoneInItself heap) (hb : AddsTame b)
    (style : Style) : ∃ o heap', ReturnsLeaving L b style heap o heap' ∧ NoneInItself heap' := by
  obtain ⟨rank, hr⟩ := hh
  obtain ⟨⟨o, s⟩, ⟨N, h1⟩, h2, h3⟩ := builder_ends (H := AllLow rank) (L := L) (S := fun _ => True) (fun r _ => all_build r) b
    (refsIn_all b) hb rootCtx rootCtx_builtin.tame (St.init style heap) hr
  cases o with
  | oof => exact absurd rfl h2
  | ok t => exact ⟨.ok (t, s.store.args), s.heap, ⟨nofun, N, fun n hn => by
      have := h1 n hn; dsimp only at this; rw [buildQueryS, newContext_eq]; dsimp only; rw [this]; exact ⟨rfl, rfl⟩⟩, rank, h3⟩
  | err e => exact ⟨.err e, s.heap, ⟨nofun, N, fun n hn => by
      have := h1 n hn; dsimp only at this; rw [buildQueryS, newContext_eq]; dsimp only; rw [this]; exact ⟨rfl, rfl⟩⟩, rank, h3⟩
  | panic p => exact ⟨.panic p, s.heap, ⟨nofun, N, fun n hn => by
      have := h1 n hn; dsimp only at this; rw [buildQueryS, newContext_eq]; dsimp only; rw [this]; exact ⟨rfl, rfl⟩⟩, rank, h3⟩

/-- **C114** The same for `BuildFragment` in a context whose functions are built in or tame. -/
theorem C114_building_fragments_returns (L : GoLib) (b : Builder) (ctx : Ctx) (hc : TameContext L ctx) (s : St)
    (hh : NoneInItself s.heap) (hb : AddsTame b) : ∃ r, BuildsTo L ctx b s r ∧ NoneInItself r.2.heap := by
  obtain ⟨rank, hr⟩ := hh
  obtain ⟨r, h1, h2, h3⟩ := builder_ends (H := AllLow rank) (L := L) (S := fun _ => True) (fun r _ => all_build r) b
    (refsIn_all b) hb ctx (tameContext_ctx hc) s hr
  exact ⟨r, ⟨h2, h1⟩, rank, h3⟩

def shortBody : Body := .custom fun
  | [.num _ (.int i)] => if 1 ≤ i ∧ i ≤ 3 then .ret (lit "x" ++ itoa i) else .fail (.invalidIndex i)
  | _ => .panic [] false

/-- `func list(i int) (string, error)` that gives `x1`, `x2`, `x3` and then no more. -/
def shortList : FuncVal := .func [.num .int 0] false [.string 0, .error] shortBody

/-- `func now() string` -/
def plainText : FuncVal := .func [] false [.string 0] (.custom fun _ => .ret (lit "now()"))

example (L : GoLib) : ∃ ctx, contextWithFuncs L rootCtx [(lit "list", shortList), (lit "now", plainText)] = .ok ctx ∧ TameContext L ctx ∧
    (run L 50 ctx (.build (.frag (.F (lit "#now() IN (#join('#list', ', '))")))) (.init question [])).1 = .ok (lit "now() IN (x1, x2, x3)") := by
  refine ⟨{ rootCtx with funcs := [(lit "list", ⟨lit "list", [.num .int 0], false, [.string 0, .error], shortBody⟩),
      (lit "now", ⟨lit "now", [], false, [.string 0], .custom fun _ => .ret (lit "now()")⟩)] :: rootCtx.funcs }, by kernel_rfl, .withFuncs (.builtins ⟨rootCtx, newContext_eq L, fun _ => rfl⟩) (fm := [(lit "list", shortList), (lit "now", plainText)])
    (fun e he => ?_) (by kernel_rfl), by kernel_rfl⟩
  simp only [List.mem_cons, List.not_mem_nil, or_false] at he
  rcases he with rfl | rfl
  · refine ⟨fun vs => ?_, .inr (.inr fun k i0 => ⟨max i0 4, by omega, ?_⟩)⟩
    · dsimp only
      split
      · split <;> trivial
      · trivial
    · dsimp only
      rw [if_neg (by omega)]
      trivial
  · exact ⟨fun _ => trivial, .inl (by decide)⟩

/-- Two query builders: the second has the first as a CTE and in a union, and a condition with user code that builds it. -/
def lowQB : QB := match runCalls QB.new [.select [tableColumn (lit "u") (lit "id")], .from_ ⟨lit "users", lit "u"⟩] with
  | .ok b => b | _ => QB.new

def highQB : QB := match runCalls QB.new [.with_ (lit "x") (.qb 0) [], .select [tableColumn (lit "x") (lit "id")], .from_ ⟨lit "x", []⟩,
    .where_ (some (.Ff (lit "x.id IN (#f1)") [.custom (.build (.qb 0) fun | .ok t => .ret t | .error e => .fail e)])),
    .union [.qb 0]] with
  | .ok b => b | _ => QB.new

example (L : GoLib) : NoneInItself [lowQB, highQB] ∧ AddsTame (.qb 1) ∧ Returns L (.qb 1) question [lowQB, highQB]
    (.ok (lit ("With x AS (SELECT u.id FROM users AS u) SELECT x.id FROM x WHERE x.id IN (SELECT u.id FROM users AS u) " ++
      "UNION (SELECT u.id FROM users AS u)"), [])) := by
  refine ⟨⟨id, fun r b hb c hc => ?_⟩, trivial, returns_of_buildQuery (n := 200) (by kernel_rfl) (by simp)⟩
  match r with
  | 0 =>
    cases hb
    have h : partsOf lowQB = [.frag (.F (lit "users AS u")), tableColumn (lit "u") (lit "id")] := by kernel_rfl
    rw [h] at hc
    simp only [List.mem_cons, List.not_mem_nil, or_false] at hc
    rcases hc with rfl | rfl <;> exact ⟨trivial, trivial⟩
  | 1 =>
    cases hb
    have h : partsOf highQB = [.qb 0, .frag (.F (lit "x")),
        .frag (.Ff (lit "x.id IN (#f1)") [.custom (.build (.qb 0) fun | .ok t => .ret t | .error e => .fail e)]),
        tableColumn (lit "x") (lit "id"), .qb 0] := by kernel_rfl
    rw [h] at hc
    simp only [List.mem_cons, List.not_mem_nil, or_false] at hc
    rcases hc with rfl | rfl | rfl | rfl | rfl
    · exact ⟨Nat.zero_lt_one, trivial⟩
    · exact ⟨trivial, trivial⟩
    · refine ⟨⟨⟨Nat.zero_lt_one, fun r => ?_⟩, trivial⟩, ⟨⟨trivial, fun r => ?_⟩, trivial⟩⟩ <;> cases r <;> exact trivial
    · exact ⟨trivial, trivial⟩
    · exact ⟨Nat.zero_lt_one, trivial⟩
  | r + 2 => simp at hb

/-- A query builder with itself as a CTE: `b.With(x, b).Select(x.Column("id")).From(x)`. -/
def selfCalls : List Call := [.with_ (lit "x") (.qb 0) [], .select [tableColumn (lit "x") (lit "id")], .from_ ⟨lit "x", []⟩]

def selfQB : QB := match runCalls QB.new selfCalls with | .ok b => b | _ => QB.new

/-- **C114** The condition is needed: building a query builder that is a CTE of itself never returns. -/
theorem C114_self_reference_never_returns (L : GoLib) (style : Style) :
    runCalls QB.new selfCalls = .ok selfQB ∧ ∀ o, ¬ Returns L (.qb 0) style [selfQB] o := by
  refine ⟨by kernel_rfl, ?_⟩
  have hdep : ∃ dep, selfQB.collectDependencies = .ok dep ∧ (⟨lit "x", []⟩ : TableAliased) ∈ dep := by
    refine ⟨match selfQB.collectDependencies with | .ok d => d | _ => [], by kernel_rfl, by decide +kernel⟩
  obtain ⟨dep, hd, hx⟩ := hdep
  have herr : selfQB.errors = [] := by kernel_rfl
  have hcte : selfQB.ctes = [⟨lit "x", [], .qb 0⟩] := by kernel_rfl
  have main : ∀ n (s : St), s.heap = [selfQB] → (run L n rootCtx (.build (.qb 0)) s).1 = .oof := by
    intro n
    induction n with
    | zero => intro s _; rfl
    | succ n ih =>
      intro s hs
      have h := ih s hs
      show (buildInternal L (run L n) n rootCtx 0 s).1 = .oof
      rcases hr : run L n rootCtx (.build (.qb 0)) s with ⟨o, s1⟩
      rw [hr] at h
      dsimp only at h
      subst h
      simp [buildInternal, getQB, M.bind, hs, herr, M.ofOut, hd, buildCTEs, collectM, hcte, hx, M.wrapErr, hr]
  rintro o ⟨h1, N, h2⟩
  have h3 := h2 N (Nat.le_refl _)
  have h4 := main N (St.init style [selfQB]) rfl
  rw [buildQuery, buildQueryS_eq] at h3
  rw [← h3] at h1
  exact h1 (queryOut_oof.2 h4)

def endlessBody : Body := .custom fun
  | [.num _ (.int i)] => if 1 ≤ i then .ret (lit "x") else .fail (.invalidIndex i)
  | _ => .panic [] false

/-- `func g(i int) (string, error)` that gives `x` for all indexes from one on. -/
def endlessList : FuncVal := .func [.num .int 0] false [.string 0, .error] endlessBody

/-- **C114** It is needed that functions run out of items: `#join('#g', ',')` never returns when `g` gives a text for every
index from one on. -/
theorem C114_endless_list_never_returns (L : GoLib) (s : St) : ∃ c ctx, newContext L = some c ∧
    contextWithFuncs L c [(lit "g", endlessList)] = .ok ctx ∧
    ∀ r, ¬ BuildsTo L ctx (.frag (.F (lit "#join('#g', ',')"))) s r := by
  suffices main : ∀ ctx : Ctx, ctx.fn (lit "g") = some ⟨lit "g", [.num .int 0], false, [.string 0, .error], endlessBody⟩ →
      ctx.fn (lit "join") = some joinInfo → ∀ r, ¬ BuildsTo L ctx (.frag (.F (lit "#join('#g', ',')"))) s r from
    ⟨rootCtx, { rootCtx with funcs := [(lit "g", ⟨lit "g", [.num .int 0], false, [.string 0, .error], endlessBody⟩)] :: rootCtx.funcs },
      newContext_eq L, by kernel_rfl, main _ (by kernel_rfl) (by kernel_rfl)⟩
  intro ctx hg hj
  have hp : parse L (lit "#join('#g', ',')") = .ok [.call (lit "join") [.str (lit "#g"), .str (lit ",")]] := by kernel_rfl
  have hp' : parse L (lit "#g") = .ok [.func (lit "g"), .plain []] := by kernel_rfl
  have one : ∀ n (ctx : Ctx) (i : Int) s, 1 ≤ i → ctx.fn (lit "g") = some ⟨lit "g", [.num .int 0], false, [.string 0, .error], endlessBody⟩ →
      run L (n + 1) ctx (.clause [.call (lit "g") [.int i], .plain []]) s = (.ok (lit "x"), s) := by
    intro n ctx i s hi hg
    have : evalCall L (run L n) n ctx ⟨lit "g", [.num .int 0], false, [.string 0, .error], endlessBody⟩ [.int i] s = (.ok (lit "x"), s) := by
      show M.wrapErr (lit "g") (safeCall (M.bind (runProg L (run L n) ctx (if 1 ≤ i then .ret (lit "x") else .fail (.invalidIndex i)))
        fun t => .pure (outString [.string 0, .error] t))) s = _
      rw [if_pos hi]
      rfl
    show buildClause L (run L n) n ctx [.call (lit "g") [.int i], .plain []] s = _
    simp only [buildClause, evalExpr, evalFunction, hg]
    show M.bind _ _ _ = _
    simp only [M.bind, this]
    rfl
  have loop : ∀ n (ctx : Ctx), ctx.fn (lit "g") = some ⟨lit "g", [.num .int 0], false, [.string 0, .error], endlessBody⟩ →
      ∀ k (i : Int) acc s, 1 ≤ i → (joinLoop (run L (n + 1)) ctx [.func (lit "g"), .plain []] (lit ",") 0 0 k i acc s).1 = .oof := by
    intro n ctx hg k
    induction k with
    | zero => intro i acc s _; rfl
    | succ k ih =>
      intro i acc s hi
      have h := one n ctx i s hi hg
      unfold joinLoop
      rw [show joinInst [.func (lit "g"), .plain []] i = [.call (lit "g") [.int i], .plain []] from rfl]
      simp only [h]
      rw [if_neg (by omega)]
      exact ih (i + 1) _ s (by omega)
  rintro r ⟨h1, N, h2⟩
  have h3 := h2 (N + 2) (by omega)
  refine h1 (h3 ▸ ?_)
  show (buildFragment L (run L (N + 1)) (N + 1) ctx (.F (lit "#join('#g', ',')")) s).1 = .oof
  have hg' : (ctx.withFragment (.F (lit "#join('#g', ',')"))).fn (lit "g") =
    some ⟨lit "g", [.num .int 0], false, [.string 0, .error], endlessBody⟩ := hg
  have hj' : (ctx.withFragment (.F (lit "#join('#g', ',')"))).fn (lit "join") = some joinInfo := hj
  simp only [buildFragment]
  generalize ctx.withFragment (.F (lit "#join('#g', ',')")) = c at hg' hj' ⊢
  have hcheck : ∀ s, joinCheck (run L (N + 1)) c [.func (lit "g"), .plain []] s = (.ok 1, s) := by
    intro s
    simp only [joinCheck, hg']
    rfl
  have hcall : ∀ s, (evalCall L (run L (N + 1)) (N + 1) c joinInfo [.str (lit "#g"), .str (lit ",")] s).1 = .oof := by
    intro s
    show (M.wrapErr (lit "join") (safeCall (M.bind (funcJoin L (run L (N + 1)) (N + 1) c (lit "#g") (lit ",") [])
        fun t => .pure (outString [.string 0, .error] t))) s).1 = _
    have : (funcJoin L (run L (N + 1)) (N + 1) c (lit "#g") (lit ",") [] s).1 = .oof := by
      have h := loop N c hg' (N + 1) 1 [] s (by omega)
      unfold funcJoin
      rw [hp']
      show (M.bind (joinCheck (run L (N + 1)) c [.func (lit "g"), .plain []]) _ s).1 = _
      simp only [M.bind, hcheck]
      exact h
    rcases hr : funcJoin L (run L (N + 1)) (N + 1) c (lit "#g") (lit ",") [] s with ⟨o, s1⟩
    rw [hr] at this
    dsimp only at this
    subst this
    simp only [M.wrapErr, safeCall, M.bind, hr]
  rcases hr : evalCall L (run L (N + 1)) (N + 1) c joinInfo [.str (lit "#g"), .str (lit ",")] { s with usedA := [], usedF := [] } with ⟨o, s1⟩
  have h := hcall { s with usedA := [], usedF := [] }
  rw [hr] at h
  dsimp only at h
  subst h
  simp only [withFreshUsage, buildBody]
  rw [show (Fragment.F (lit "#join('#g', ',')")).raw = lit "#join('#g', ',')" from rfl, hp]
  simp only [buildClause, evalExpr, evalFunction, hj', M.bind, M.wrapErr, hr]

def selfBody : Body := .custom fun _ => .build (.frag (.F (lit "#g()"))) fun
  | .ok t => .ret t
  | .error e => .fail e

/-- `func g(ctx *Context) (string, error)` that builds the fragment `#g()` in the context it gets. -/
def callsItself : FuncVal := .func [.context] false [.string 0, .error] selfBody

/-- **C114** It is needed that functions do not call themselves. -/
theorem C114_self_call_never_returns (L : GoLib) (s : St) : ∃ c ctx, newContext L = some c ∧
    contextWithFuncs L c [(lit "g", callsItself)] = .ok ctx ∧
    ∀ r, ¬ BuildsTo L ctx (.frag (.F (lit "#g()"))) s r := by
  refine ⟨rootCtx, { rootCtx with funcs := [(lit "g", ⟨lit "g", [.context], false, [.string 0, .error], selfBody⟩)] :: rootCtx.funcs },
    newContext_eq L, by kernel_rfl, ?_⟩
  have hp : parse L (lit "#g()") = .ok [.call (lit "g") []] := by kernel_rfl
  have main : ∀ n (ctx : Ctx) s, ctx.fn (lit "g") = some ⟨lit "g", [.context], false, [.string 0, .error], selfBody⟩ →
      (run L n ctx (.build (.frag (.F (lit "#g()")))) s).1 = .oof := by
    intro n
    induction n with
    | zero => intros; rfl
    | succ n ih =>
      intro ctx s hg
      have hg' : (ctx.withFragment (.F (lit "#g()"))).fn (lit "g") = some ⟨lit "g", [.context], false, [.string 0, .error], selfBody⟩ := hg
      have h := ih (ctx.withFragment (.F (lit "#g()"))) { s with usedA := [], usedF := [] } hg'
      rcases hr : run L n (ctx.withFragment (.F (lit "#g()"))) (.build (.frag (.F (lit "#g()")))) { s with usedA := [], usedF := [] } with ⟨o, s1⟩
      rw [hr] at h
      dsimp only at h
      subst h
      have hcall : evalCall L (run L n) n (ctx.withFragment (.F (lit "#g()"))) ⟨lit "g", [.context], false, [.string 0, .error], selfBody⟩ []
          { s with usedA := [], usedF := [] } = (.oof, s1) := by
        show M.wrapErr (lit "g") (safeCall (M.bind (runProg L (run L n) (ctx.withFragment (.F (lit "#g()"))) (.build (.frag (.F (lit "#g()"))) _))
          fun t => .pure (outString [.string 0, .error] t))) _ = _
        simp only [M.wrapErr, safeCall, M.bind, runProg, hr]
      show (buildFragment L (run L n) n ctx (.F (lit "#g()")) s).1 = .oof
      simp only [buildFragment, withFreshUsage, buildBody]
      rw [show (Fragment.F (lit "#g()")).raw = lit "#g()" from rfl, hp]
      simp only [buildClause, evalExpr, evalFunction, hg', M.bind, M.wrapErr, hcall]
  rintro r ⟨h1, N, h2⟩
  exact h1 (h2 N (Nat.le_refl _) ▸ main N _ s (by kernel_rfl))

end Sqlf.Props
