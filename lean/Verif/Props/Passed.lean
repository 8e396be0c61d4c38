import Verif.Proofs.Passed
import Verif.Props.Funcs
import Verif.Props.Syntax
/-!
# C112: what a function gets from a call, and what the call gets from it
-/

namespace Sqlf.Props

open Spec

private theorem types_of_receives {f : FuncInfo} {as : List CallArg} {vs : List ArgVal}
    (hv : f.variadic = true → f.ins ≠ []) (hc : f.variadic = true → f.ins ≠ [.context]) (h : Receives f as vs) :
    f.arityOk as.length = true ∧ evalArgs (f.paramTypes as.length) as = .ok vs := by
  refine ⟨(arityOk_iff_countFits f hv hc _).2 h.1, evalArgs_of_received _ _ _ h.2.1 fun k a hk => ?_⟩
  have hlt : k < as.length := (List.getElem?_eq_some_iff.1 hk).1
  rw [paramTypes_get_fits f as.length k hv hc hlt h.1]
  exact h.2.2 k a hk

/-- **C112** A call with as many literals as the function has parameters, of the kinds of the parameters: the function
is run once, with the context of the template and with the values that are written; the call is what it returns.
The hypotheses on `f` hold for every Go function type.  Missing: parameters of string and bool types that are defined
by the user, for which the claim is false (`C112_defined_types_counterexample`, `C112_defined_types_never_run`). -/
theorem C112_function_gets_the_literals_partial (L : GoLib) (ctx : Ctx) (f : FuncInfo) (p : List ArgVal → Prog)
    (as : List CallArg) (vs : List ArgVal) (hp : f.body = .custom p)
    (hv : f.variadic = true → f.ins ≠ []) (hc : f.variadic = true → f.ins ≠ [.context])
    (hr : Receives f as vs) (hd : ∀ k t, k < as.length → paramType f k = some t → definedType t = false)
    (s s' : St) (o : Out Str) (h : BuildsTo L ctx (.custom (p vs)) s (o, s')) :
    Evals L ctx (.call f as) s (callOutcome f o, s') := by
  obtain ⟨h1, h2⟩ := types_of_receives hv hc hr
  have h3 : callAssignable (f.paramTypes as.length) vs = true := by
    refine callAssignable_true _ _ fun k t hk ht => ?_
    rw [hr.2.1] at hk
    rw [paramTypes_get_fits f as.length k hv hc hk hr.1] at ht
    exact hd k t hk ht
  obtain ⟨hne, N, h⟩ := buildsTo_iff.1 h
  refine evals_iff.2 ⟨by cases o with | panic q => cases q <;> simp [callOutcome] | _ => simp_all [callOutcome], N, fun n hn => ?_⟩
  have hrun : runProg L (run L n) ctx (p vs) s = (o, s') := h n hn
  show evalCall L (run L n) n ctx f as s = _
  unfold evalCall
  simp only [h1, h2, h3, hp, callBody, Bool.not_true, Bool.false_eq_true, if_false, if_true]
  unfold M.wrapErr safeCall M.bind
  simp only [hrun]
  cases o with
  | ok t => simp [callOutcome, outString, M.pure]
  | err e => rfl
  | panic q => cases q <;> rfl
  | oof => exact absurd rfl hne

/-- **C112** A function with a parameter of a user-defined string or bool type is never run by a call that gives it a
literal: the call is an error. -/
theorem C112_defined_types_never_run (L : GoLib) (ctx : Ctx) (f : FuncInfo) (as : List CallArg) (vs : List ArgVal)
    (hv : f.variadic = true → f.ins ≠ []) (hc : f.variadic = true → f.ins ≠ [.context])
    (hr : Receives f as vs) (k : Nat) (t : GoType) (hk : k < as.length) (ht : paramType f k = some t)
    (hd : definedType t = true) (s : St) :
    Evals L ctx (.call f as) s (.err (.wrap f.name (.recovered .reflectCall)), s) := by
  obtain ⟨h1, h2⟩ := types_of_receives hv hc hr
  obtain ⟨t', v, ht', hv', hvs⟩ := hr.2.2 k _ (List.getElem?_eq_getElem hk)
  rw [ht] at ht'
  cases ht'
  have h3 : callAssignable (f.paramTypes as.length) vs = false :=
    callAssignable_false _ _ k t _ v ((paramTypes_get_fits f as.length k hv hc hk hr.1).trans ht) hd hv' hvs
  refine evals_iff.2 ⟨by simp, 0, fun n _ => ?_⟩
  show evalCall L (run L n) n ctx f as s = _
  unfold evalCall
  simp only [h1, h2, h3, Bool.not_true, Bool.false_eq_true, if_false]
  rfl

/-- **C112** is false: with `type Name string`, `ContextWithFuncs` accepts `func(Name) string`, and a fragment that calls
it with a string does not build, whatever the function does. -/
theorem C112_defined_types_counterexample (L : GoLib) (p : List ArgVal → Prog) (ctx : Ctx) (style : Style) (heap : List QB) :
    ∃ ctx', contextWithFuncs L ctx [(lit "f", .func [.string 1] false [.string 0] (.custom p))] = .ok ctx' ∧
      ∃ e, BuildsTo L ctx' (.frag (.F (lit "#f('a')"))) (St.init style heap) (.err e, St.init style heap) := by
  refine ⟨_, rfl, .wrap (lit "#f('a')") (.wrap (lit "f") (.recovered .reflectCall)), buildsTo_of_run (n := 10) ?_ (by simp)⟩
  rfl

/-- **C112** for the text of a template: `#name(…)` with an accepted ASCII name and any literals, between any
blanks, is built to what the function returns, trimmed.  Missing: as above. -/
theorem C112_written_calls_partial (L : GoLib) (ctx : Ctx) (f : FuncInfo) (p : List ArgVal → Prog) (name : Str)
    (hname : goodName L name = true) (hascii : ∀ b ∈ name, b < 0x80) (hf : ctx.fn name = some f) (hp : f.body = .custom p)
    (hv : f.variadic = true → f.ins ≠ []) (hc : f.variadic = true → f.ins ≠ [.context])
    (args : List (Nat × Lit)) (hw : ∀ a ∈ args, a.2.WF) (vs : List ArgVal)
    (hr : Receives f (args.map (·.2.value)) vs)
    (hd : ∀ k t, k < args.length → paramType f k = some t → definedType t = false)
    (raw : Str) (hraw : raw = lit "#" ++ name ++ lit "(" ++ renderArgs args) (s s' : St) (t : Str)
    (h : BuildsTo L (ctx.withFragment (.F raw)) (.custom (p vs)) { s with usedA := [], usedF := [] } (.ok t, s')) :
    BuildsTo L ctx (.frag (.F raw)) s
      (.ok (trimSpace (if f.outs = [] then [] else t)), { s' with usedA := s.usedA, usedF := s.usedF }) := by
  obtain ⟨es, hes, hg⟩ := (C40_ascii_names_callable_partial L name hname hascii).1 args hw
  have hcall := C112_function_gets_the_literals_partial L (ctx.withFragment (.F raw)) f p _ vs hp hv hc hr
    (by simpa using hd) _ _ _ h
  obtain ⟨-, N, hN⟩ := evals_iff.1 hcall
  refine buildsTo_iff.2 ⟨by simp, ?_⟩
  have := Ev.fragment (L := L) (ctx := ctx) (f := .F raw) (s := s) (s1 := s') (es := es)
    (body := (if f.outs = [] then [] else t) ++ []) (by rw [← hes, hraw]; rfl)
    ⟨N, fun n hn => ?_⟩ rfl
  · rw [List.append_nil] at this
    rw [show decorate (Fragment.F raw).pre (Fragment.F raw).suf (if f.outs = [] then [] else t) = trimSpace (if f.outs = [] then [] else t)
      from by
        show decorate [] [] _ = _
        generalize (if f.outs = [] then [] else t) = u
        by_cases h : trimSpace u = [] <;> simp [decorate, h]] at this
    exact this
  · have hx : evalExpr L (run L n) n (ctx.withFragment (.F raw)) (.call name (args.map (·.2.value))) s.fresh =
        (.ok (if f.outs = [] then [] else t), s') := by
      show (match (ctx.withFragment (.F raw)).fn name with
        | none => M.err (.undefinedFunc name)
        | some f => evalCall L (run L n) n _ f _) s.fresh = _
      rw [show (ctx.withFragment (.F raw)).fn name = some f from hf]
      exact hN n hn
    show buildClause L (run L n) n (ctx.withFragment (.F raw)) es s.fresh = _
    rw [← buildClause_glue, hg]
    unfold buildClause
    rw [bind_of_ok hx]
    rfl

/-- The hypotheses of C112: `#f(7, 'it''s', true)` for a `func(ctx *Context, n int64, more ...string) string`
gives a bool for a string; `#f(7, 'it''s', 'b')` fits. -/
example : let f : FuncInfo := ⟨lit "f", [.context, .num .int64 0, .slice (.string 0)], true, [.string 0],
      .custom fun vs => .ret (vs.getD 1 .context).toStr⟩
    Receives f [.num (.nat 7), .str (lit "it's"), .str (lit "b")]
      [.num .int64 (.num (.nat 7)), .str (lit "it's"), .str (lit "b")] ∧
    ∀ k t, k < 3 → paramType f k = some t → definedType t = false := by
  constructor
  · refine ⟨by simp [countFits, paramCount], rfl, ?_⟩
    intro k a hk
    match k, hk with
    | 0, hk => cases hk; exact ⟨_, _, rfl, rfl, rfl⟩
    | 1, hk => cases hk; exact ⟨_, _, rfl, rfl, rfl⟩
    | 2, hk => cases hk; exact ⟨_, _, rfl, rfl, rfl⟩
  · intro k t hk ht
    match k, hk, ht with
    | 0, _, ht => cases ht; rfl
    | 1, _, ht => cases ht; rfl
    | 2, _, ht => cases ht; rfl

/-- The whole way: `#f('it''s')` with `func(s string) string { return s }`. -/
example (L : GoLib) : ∃ ctx, newContext L = some ctx ∧
    ∃ ctx', contextWithFuncs L ctx [(lit "f", .func [.string 0] false [.string 0] (.custom fun vs => .ret (vs.getD 0 .context).toStr))]
      = .ok ctx' ∧
    BuildsTo L ctx' (.frag (.F (lit "#f('it''s')"))) (St.init 1 []) (.ok (lit "it's"), St.init 1 []) := by
  refine ⟨_, rfl, _, rfl, buildsTo_of_run (n := 10) ?_ (by simp)⟩
  rfl

end Sqlf.Props
