import Verif.Proofs.Blame
import Verif.Props.Funcs
import Verif.Props.Reader
import Verif.KernelRfl
/-!
# C95: errors say where and why a build failed
-/

namespace Sqlf.Props

open Spec

/-- **C95** An error of a build, in a context with registered functions, says where the build failed, and why: read
from the outside in, it names the templates, functions, CTEs and tables that lead to a place that is really there,
and the reason given is true of this place. -/
theorem C95_errors_explained (L : GoLib) (ctx : Ctx) (b : Builder) (s s' : St) (e : Err) (hr : Registered L ctx)
    (h : BuildsTo L ctx b s (.err e, s')) : Explains L s.heap ctx b e := by
  obtain ⟨-, N, h⟩ := h
  exact (explained L N).build hr (grownQBs_effRel.refl s) (h N (Nat.le_refl _))

private theorem registered_root (L : GoLib) : Registered L rootCtx := by
  intro name g hg
  have hb : BuiltIn L rootCtx name := ⟨rootCtx, newContext_eq L, rfl⟩
  rw [rootCtx_builtin] at hg
  repeat' split at hg
  all_goals first | (cases hg; rename_i hn; exact ⟨hn.symm, .inl hb, by simp [indexInfo, joinInfo]⟩) | cases hg

/-- **C95** The same for `BuildQuery`. -/
theorem C95_query_errors_explained (L : GoLib) (b : Builder) (style : Style) (heap : List QB) (e : Err)
    (h : Returns L b style heap (.err e)) : ∃ ctx, newContext L = some ctx ∧ Explains L heap ctx b e := by
  refine ⟨rootCtx, newContext_eq L, ?_⟩
  obtain ⟨-, N, h⟩ := h
  have h := h N (Nat.le_refl _)
  unfold buildQuery at h
  unfold buildQueryS at h
  rw [newContext_eq] at h
  dsimp only at h
  rcases hm : run L N rootCtx (.build b) (St.init style heap) with ⟨o, s'⟩
  rw [hm] at h
  cases o with
  | ok t => cases h
  | err e' =>
    cases h
    exact (explained L N).build (registered_root L) (grownQBs_effRel.refl (St.init style heap)) hm
  | panic p => cases h
  | oof => cases h

/-- **C95** The contexts that users can make have registered functions: a new one, and one to which functions have
been added with `ContextWithFuncs`.  (Go has no variadic functions without parameters, or with only a `*Context` as
their variadic parameter.) -/
theorem C95_contexts_registered (L : GoLib) : (∀ ctx, newContext L = some ctx → Registered L ctx) ∧
    ∀ ctx ctx' fm, Registered L ctx →
      (∀ name ins variadic outs body, (name, FuncVal.func ins variadic outs body) ∈ fm →
        (∃ p, body = .custom p) ∧ (variadic = true → ins ≠ [] ∧ ins ≠ [.context])) →
      contextWithFuncs L ctx fm = .ok ctx' → Registered L ctx' := by
  constructor
  · intro ctx h
    rw [newContext_eq] at h
    cases h
    exact registered_root L
  · intro ctx ctx' fm hr hfm h
    unfold contextWithFuncs at h
    cases ha : addValueFuncs L [] fm with
    | error e => rw [ha] at h; cases h
    | ok m =>
      rw [ha] at h
      cases h
      have key : ∀ (fm : FuncMap) (out m : List (Str × FuncInfo)),
          (∀ name ins variadic outs body, (name, FuncVal.func ins variadic outs body) ∈ fm →
            (∃ p, body = .custom p) ∧ (variadic = true → ins ≠ [] ∧ ins ≠ [.context])) →
          (∀ p ∈ out, p.2.name = p.1 ∧ (∃ q, p.2.body = .custom q) ∧
            (p.2.variadic = true → p.2.ins ≠ [] ∧ p.2.ins ≠ [.context])) →
          addValueFuncs L out fm = .ok m →
          ∀ p ∈ m, p.2.name = p.1 ∧ (∃ q, p.2.body = .custom q) ∧
            (p.2.variadic = true → p.2.ins ≠ [] ∧ p.2.ins ≠ [.context]) := by
        intro fm
        induction fm with
        | nil => intro out m _ ho h; cases h; exact ho
        | cons x fm ih =>
          intro out m hfm ho h
          obtain ⟨name, fv⟩ := x
          unfold addValueFuncs at h
          split at h
          · cases h
          · cases fv with
            | notFunc => cases h
            | func ins variadic outs body =>
              dsimp only at h
              split at h
              · cases h
              · cases hg : goodFunc { name, ins, variadic, outs, body } with
                | some e => rw [hg] at h; cases h
                | none =>
                  rw [hg] at h
                  refine ih _ m (fun n i v o b hm => hfm n i v o b (by simp [hm])) ?_ h
                  intro p hp
                  rcases List.mem_append.1 hp with hp | hp
                  · exact ho p hp
                  · simp only [List.mem_singleton] at hp
                    subst hp
                    obtain ⟨h1, h2⟩ := hfm name ins variadic outs body (by simp)
                    exact ⟨rfl, h1, h2⟩
      have hm := key fm [] m hfm (by simp) ha
      intro name g hg
      unfold Ctx.fn at hg
      simp only [List.findSome?_cons] at hg
      cases hl : lookupFn m name with
      | some g' =>
        rw [hl] at hg
        cases hg
        unfold lookupFn at hl
        simp only [Option.map_eq_some_iff] at hl
        obtain ⟨p, hp, rfl⟩ := hl
        obtain ⟨h1, h2, h3⟩ := hm p (List.mem_of_find?_eq_some hp)
        have := List.find?_some hp
        simp only [decide_eq_true_eq] at this
        exact ⟨h1.trans this, .inr h2, h3⟩
      | none =>
        rw [hl] at hg
        have hfn : Ctx.fn { ctx with funcs := m :: ctx.funcs } name = ctx.fn name := by
          unfold Ctx.fn
          simp only [List.findSome?_cons]
          rw [hl]
        obtain ⟨h1, h2, h3⟩ := hr name g hg
        refine ⟨h1, ?_, h3⟩
        rcases h2 with ⟨c, h4, h5⟩ | h2
        · exact .inl ⟨c, h4, by rw [hfn]; exact h5⟩
        · exact .inr h2

/-- The place is named by the templates and functions on the way. -/
example (L : GoLib) : Returns L (.frag (.Ff (lit "SELECT #f1") [.frag (.Ff (lit "a #join('#f', ', ')")
      [.frag (.F (lit "b")), .frag (.F (lit "c #now()"))])])) dollar []
    (.err (.wrap (lit "SELECT #f1") (.wrap (lit "f") (.wrap (lit "a #join('#f', ', ')") (.wrap (lit "join")
      (.wrap (lit "f") (.wrap (lit "c #now()") (.undefinedFunc (lit "now"))))))))) :=
  returns_of_buildQuery (n := 200) (by kernel_rfl) (by simp)

/-- A query: the error is in the table reference of a CTE. -/
example (L : GoLib) : Returns L (.qb 0) question
      [((QB.new.with_ (lit "x") (.qb 1) []).from_ ⟨lit "x", []⟩).select [exprColumn (some (.F (lit "1")))],
       (QB.new.from_ ⟨lit "t $1", []⟩).select [exprColumn (some (.F (lit "1")))]]
    (.err (.wrap (lit "x") (.wrap (lit "t $1") (.wrap (lit "t $1") (.bindVarIndex 1))))) :=
  returns_of_buildQuery (n := 200) (by kernel_rfl) (by simp)

private def nowBody : Body := .custom fun _ => .fail (.user (lit "no clock") false)
private def nowInfo : FuncInfo := { name := lit "now", ins := [], variadic := false, outs := [.string 0, .error], body := nowBody }

/-- A user's function is named. -/
example (L : GoLib) : ∃ ctx, Registered L ctx ∧ ctx.fn (lit "now") ≠ none ∧ ∀ s, ∃ s',
    BuildsTo L ctx (.frag (.F (lit "a #now()"))) s
      (.err (.wrap (lit "a #now()") (.wrap (lit "now") (.user (lit "no clock") false))), s') := by
  refine ⟨{ rootCtx with funcs := [(lit "now", nowInfo)] :: rootCtx.funcs },
    ?_, by simp [Ctx.fn, lookupFn], fun s => ⟨s, buildsTo_of_run (n := 50) (by kernel_rfl) (by simp)⟩⟩
  refine (C95_contexts_registered L).2 rootCtx _ [(lit "now", .func [] false [.string 0, .error] nowBody)]
    (registered_root L) ?_ ?_
  · intro name ins variadic outs body h
    simp only [List.mem_singleton, Prod.mk.injEq, FuncVal.func.injEq] at h
    obtain ⟨-, rfl, rfl, -, rfl⟩ := h
    exact ⟨⟨_, rfl⟩, by simp⟩
  · kernel_rfl

/-- An error that blames something else is not explained. -/
example (L : GoLib) : Explains L [] rootCtx (.frag (.F (lit "a $1"))) (.wrap (lit "a $1") (.bindVarIndex 1)) ∧
    ¬ Explains L [] rootCtx (.frag (.F (lit "a $1"))) (.wrap (lit "a $1") (.bindVarIndex 2)) ∧
    ¬ Explains L [] rootCtx (.frag (.F (lit "a $1"))) (.wrap (lit "$1") (.bindVarIndex 1)) := by
  have hp : parse L (lit "a $1") = .ok [.plain (lit "a "), .bindVar dollar 1] := by kernel_rfl
  refine ⟨.inside (x := .bindVar dollar 1) hp (by simp) (.bindVar (fr := ⟨[], []⟩) rfl rfl), fun h => ?_, fun h => ?_⟩
  · cases h with
    | inside h hx he =>
      have h : parse L (lit "a $1") = _ := h
      rw [hp] at h
      cases h
      simp only [List.mem_cons, List.not_mem_nil, or_false] at hx
      rcases hx with rfl | rfl <;> cases he
  · have h : ∀ b e, Explains L [] rootCtx b e → b = .frag (.F (lit "a $1")) → ∀ e', e ≠ .wrap (lit "$1") e' := by
      intro b e h hb e' he
      subst he hb
      have hraw : (Fragment.F (lit "a $1")).raw ≠ lit "$1" := by decide
      generalize hf : Fragment.F (lit "a $1") = f at h hraw
      generalize hw : lit "$1" = w at h hraw
      cases h <;> exact hraw rfl
    exact h _ _ ‹_› rfl _ rfl

/-! ## C41: calls in templates -/

private theorem readArg_no_int {L : GoLib} {s u : Str} {a : CallArg} (h : readArg L s = some (a, u)) (i : Int) :
    a ≠ .int i := by
  rintro rfl
  unfold readArg at h
  dsimp only at h
  repeat' split at h
  all_goals simp at h

private theorem readArgs_no_int {L : GoLib} {n : Nat} {s u : Str} {as : List CallArg}
    (h : readArgs L n s = some (as, u)) (i : Int) : CallArg.int i ∉ as := by
  induction n generalizing s as u with
  | zero => simp [readArgs] at h
  | succ n ih =>
    unfold readArgs at h
    split at h
    · simp only [Option.some.injEq, Prod.mk.injEq] at h; simp [← h.1]
    · split at h
      · simp at h
      next a v hv =>
        have h1 := readArg_no_int hv i
        split at h
        · simp at h; rw [← h.1]; simpa using h1.symm
        · split at h
          · simp only [Option.map_eq_some_iff] at h
            obtain ⟨⟨as', u'⟩, hr, he⟩ := h
            simp at he
            rw [← he.1]
            simp [h1.symm, ih hr]
          · simp at h

private theorem readFrom_no_int {L : GoLib} (n k : Nat) (q : Bool) (s : Str) (es : List Expr)
    (h : readFrom L n k q s = some es) (name : Str) (as : List CallArg) (hm : .call name as ∈ es) (i : Int) :
    CallArg.int i ∉ as := by
  induction n generalizing k q s es with
  | zero => simp [readFrom] at h
  | succ n ih =>
    cases s with
    | nil => simp [readFrom] at h; subst h; simp at hm
    | cons b t =>
      unfold readFrom at h
      dsimp only at h
      repeat' split at h
      all_goals try (simp at h; done)
      all_goals try (simp at h; subst h; simp at hm; done)
      all_goals
        simp only [Option.map_eq_some_iff] at h
        obtain ⟨es', hr, rfl⟩ := h
        simp only [List.mem_cons, Expr.call.injEq, reduceCtorEq, false_or] at hm
      all_goals try exact ih _ _ _ _ hr hm
      · rcases hm with ⟨-, rfl⟩ | hm
        · simp
        · exact ih _ _ _ _ hr hm
      · rename_i hra
        rcases hm with ⟨-, rfl⟩ | hm
        · exact readArgs_no_int hra i
        · exact ih _ _ _ _ hr hm

private theorem call_mem_glue (name : Str) (as : List CallArg) (es : List Expr) :
    .call name as ∈ glue es ↔ .call name as ∈ es := by
  induction es with
  | nil => rfl
  | cons e es ih =>
    cases e with
    | plain t =>
      simp only [Spec.glue]
      split
      · simp [ih]
      · rw [List.mem_cons, ← ih]
        split
        next h => rw [h]; simp
        next => simp
    | bindVar st i => simp [Spec.glue, ih]
    | call _ _ => simp [Spec.glue, ih]
    | func _ => simp [Spec.glue, ih]

private theorem parse_no_int {L : GoLib} {s : Str} {es : List Expr} (h : parse L s = .ok es) (name : Str)
    (as : List CallArg) (hm : .call name as ∈ es) (i : Int) : CallArg.int i ∉ as := by
  obtain ⟨es', hr, hg⟩ := C82_reads_templates L s es h
  rw [← call_mem_glue, hg, call_mem_glue] at hm
  exact readFrom_no_int _ _ _ _ _ hr _ _ hm i

private theorem clause_evaluates {L : GoLib} {rec : Rec} {m : Nat} {ctx : Ctx} {es : List Expr} {x : Expr} {s s' : St}
    {t : Str} (h : buildClause L rec m ctx es s = (.ok t, s')) (hx : x ∈ es) :
    ∃ s1 s2 u, evalExpr L rec m ctx x s1 = (.ok u, s2) := by
  induction es generalizing s s' t with
  | nil => simp at hx
  | cons e es ih =>
    unfold buildClause at h
    obtain ⟨u, s1, h1, h2⟩ := bind_ok h
    obtain ⟨v, s2, h3, -⟩ := bind_ok h2
    simp only [List.mem_cons] at hx
    rcases hx with rfl | hx
    · exact ⟨_, _, _, h1⟩
    · exact ih h3 hx

/-- **C41** A fragment that is built contains only calls of defined functions, with as many arguments as the
function takes, all of which fit the types of the parameters: with any other call the build fails, whatever
else the template contains. -/
theorem C41_built_calls_fit (L : GoLib) (ctx : Ctx) (f : Fragment) (s s' : St) (t : Str) (hr : Registered L ctx)
    (h : BuildsTo L ctx (.frag f) s (.ok t, s')) (es : List Expr) (hp : parse L f.raw = .ok es)
    (name : Str) (as : List CallArg) (hm : .call name as ∈ es) :
    ∃ g, ctx.fn name = some g ∧ countFits g as.length ∧
      ∀ k a t, as[k]? = some a → paramType g k = some t → literalFits t a = true := by
  obtain ⟨-, N, h⟩ := h
  have h := h (N + 1) (by omega)
  obtain ⟨es', body, s1, h1, h2, -⟩ := buildFragment_ok.1 (show buildFragment L (run L N) N ctx f s = _ from h)
  rw [hp] at h1
  cases h1
  obtain ⟨s2, s3, u, h3⟩ := clause_evaluates h2 hm
  change evalFunction L (run L N) N (ctx.withFragment f) name as s2 = _ at h3
  unfold evalFunction at h3
  change (match ctx.fn name with | none => _ | some f' => _ : M Str) s2 = _ at h3
  cases hg : ctx.fn name with
  | none => rw [hg] at h3; cases congrArg Prod.fst h3
  | some g =>
    rw [hg] at h3
    dsimp only at h3
    obtain ⟨-, -, hv⟩ := hr name g hg
    refine ⟨g, rfl, ?_, ?_⟩
    · apply Classical.byContradiction
      intro hc
      obtain ⟨e, he⟩ := C41_wrong_count_rejected L (run L N) N (ctx.withFragment f) g as s2 (fun h => (hv h).1)
        (fun h => (hv h).2) hc
      rw [he] at h3
      cases congrArg Prod.fst h3
    · intro k a t' ha ht
      apply Classical.byContradiction
      intro hc
      rcases C41_wrong_literal_not_run L (run L N) N (ctx.withFragment f) g as s2 (fun h => (hv h).1)
        (fun h => (hv h).2) (parse_no_int hp name as hm) k t' a ha ht (by simpa using hc) with ⟨e, he⟩ | ⟨-, e, he⟩
      all_goals
        rw [he] at h3
        cases congrArg Prod.fst h3

/-- A fragment with two calls is built; with an argument that does not fit, or one too many, it is not. -/
example (L : GoLib) (s : St) :
    (∃ es, parse L (lit "#f1 #join('#f', ',')") = .ok es ∧ .call (lit "join") [.str (lit "#f"), .str (lit ",")] ∈ es) ∧
    BuildsTo L rootCtx (.frag (.mk (lit "#f1 #join('#f', ',')") [] [.frag (.F (lit "a"))] [] [])) s (.ok (lit "a a"), s) ∧
    BuildsTo L rootCtx (.frag (.mk (lit "#f('1')") [] [.frag (.F (lit "a"))] [] [])) s
      (.err (.wrap (lit "#f('1')") (.argType (lit "f"))), s) ∧
    BuildsTo L rootCtx (.frag (.mk (lit "#f(1, 2)") [] [.frag (.F (lit "a"))] [] [])) s
      (.err (.wrap (lit "#f(1, 2)") (.wrongArgCount (lit "f"))), s) :=
  ⟨⟨[.call (lit "f") [.num (.nat 1)], .plain (lit " "), .call (lit "join") [.str (lit "#f"), .str (lit ",")]],
      by kernel_rfl, by simp⟩, buildsTo_of_run (n := 50) (by kernel_rfl) (by simp),
    buildsTo_of_run (n := 50) (by kernel_rfl) (by simp), buildsTo_of_run (n := 50) (by kernel_rfl) (by simp)⟩

end Sqlf.Props
