import Verif.Props.Funcs
import Verif.Proofs.Api
import Verif.Proofs.JoinEv
/-!
# C38, C84: contexts given to user code

`.custom p` is a `FragmentBuilder` of the user; `p` is what its `BuildFragment(ctx)` does.
-/

namespace Sqlf.Props

open Spec

private theorem run_custom (L : GoLib) (n : Nat) (ctx : Ctx) (p : Prog) :
    run L (n + 1) ctx (.build (.custom p)) = runProg L (run L n) ctx p := rfl

/-- What the user code does after a build with outcome `o` in state `s'`. -/
def Continues (L : GoLib) (ctx : Ctx) (k : Except Err Str → Prog) (o : Out Str) (s' : St) (r : Out Str × St) : Prop :=
  match o with
  | .ok t => BuildsTo L ctx (.custom (k (.ok t))) s' r
  | .err e => BuildsTo L ctx (.custom (k (.error e))) s' r
  | o => r = (o, s')

private theorem continues_of {L : GoLib} {ctx ctx' : Ctx} {b : Builder} {k : Except Err Str → Prog} {s s' : St} {o : Out Str}
    {r : Out Str × St} {p : Prog}
    (hp : ∀ n, runProg L (run L n) ctx p s = match run L n ctx' (.build b) s with
      | (.ok t, s') => runProg L (run L n) ctx (k (.ok t)) s'
      | (.err e, s') => runProg L (run L n) ctx (k (.error e)) s'
      | (.panic p, s') => (.panic p, s')
      | (.oof, s') => (.oof, s'))
    (h : BuildsTo L ctx' b s (o, s')) (hk : Continues L ctx k o s' r) : BuildsTo L ctx (.custom p) s r := by
  obtain ⟨hne, N, hN⟩ := h
  have key : ∀ q, BuildsTo L ctx (.custom q) s' r → (∀ n, N ≤ n → runProg L (run L n) ctx p s = runProg L (run L n) ctx q s') →
      BuildsTo L ctx (.custom p) s r := by
    rintro q ⟨h1, M, h2⟩ he
    refine ⟨h1, N + M + 1, fun n hn => ?_⟩
    obtain ⟨n, rfl⟩ : ∃ m, n = m + 1 := ⟨n - 1, by omega⟩
    rw [run_custom, he n (by omega), ← run_custom, h2 _ (by omega)]
  cases o with
  | ok t => exact key _ hk fun n hn => by rw [hp, hN n hn]
  | err e => exact key _ hk fun n hn => by rw [hp, hN n hn]
  | panic q =>
    cases hk
    refine ⟨hne, N + 1, fun n hn => ?_⟩
    obtain ⟨n, rfl⟩ : ∃ m, n = m + 1 := ⟨n - 1, by omega⟩
    rw [run_custom, hp, hN n (by omega)]
  | oof => exact absurd rfl hne

/-! ## C38 -/

/-- **C38** User code that adds functions with ContextWithFuncs and builds something with the new context: this is
built with the new context, and what follows is done with the old one. -/
theorem C38_derived_context_is_used (L : GoLib) (ctx ctx' : Ctx) (fm : FuncMap) (b : Builder) (k : Except Err Str → Prog)
    (hc : contextWithFuncs L ctx fm = .ok ctx') (s s' : St) (o : Out Str) (h : BuildsTo L ctx' b s (o, s'))
    (r : Out Str × St) (hk : Continues L ctx k o s' r) : BuildsTo L ctx (.custom (.buildWith fm b k)) s r :=
  continues_of (fun n => by rw [runProg, hc]; rfl) h hk

/-- What the arguments are after these commits. -/
private def after (vs : List Val) : St :=
  { St.init dollar [] with store := match commitAll (Store.new dollar) vs with | some (_, st) => st | none => Store.new dollar }

/-- `now` is added, `#now() > ?` is built with it, and what follows is done without it: `#now()` is an error then. -/
example (L : GoLib) : ∃ ctx', contextWithFuncs L rootCtx [(lit "now", .func [] false [.string 0] (.custom fun _ => .ret (lit "NOW()")))] = .ok ctx' ∧
    BuildsTo L ctx' (.frag (.Fa (lit "#now() > ?") [.int 64 1])) (St.init dollar []) (.ok (lit "NOW() > $1"), after [.int 64 1]) ∧
    Continues L rootCtx (fun
      | .ok t => .build (.frag (.F (lit "#now()"))) fun | .ok _ => .ret [] | .error e => .ret (t ++ lit " (no #now() here)")
      | .error e => .fail e) (.ok (lit "NOW() > $1")) (after [.int 64 1])
      (.ok (lit "NOW() > $1 (no #now() here)"), after [.int 64 1]) :=
  ⟨_, by rfl, buildsTo_of_run (n := 50) (by kernel_rfl) (by simp), buildsTo_of_run (n := 50) (by kernel_rfl) (by simp)⟩

/-- **C38** If ContextWithFuncs rejects the functions, the user code gets its error and nothing is built. -/
theorem C38_rejected_functions_build_nothing (L : GoLib) (ctx : Ctx) (fm : FuncMap) (e : Err) (b : Builder)
    (k : Except Err Str → Prog) (hc : contextWithFuncs L ctx fm = .error e) (s : St) (r : Out Str × St)
    (hk : BuildsTo L ctx (.custom (k (.error e))) s r) : BuildsTo L ctx (.custom (.buildWith fm b k)) s r := by
  obtain ⟨h1, N, h2⟩ := hk
  refine ⟨h1, N + 1, fun n hn => ?_⟩
  obtain ⟨n, rfl⟩ : ∃ m, n = m + 1 := ⟨n - 1, by omega⟩
  have := h2 (n + 1) (by omega)
  rw [run_custom] at this ⊢
  rw [runProg, hc]
  exact this

/-- A function with a number as its result is rejected, and the user code goes on. -/
example (L : GoLib) : ∃ e, contextWithFuncs L rootCtx [(lit "now", .func [] false [.num .int 0] (.custom fun _ => .ret []))] = .error e ∧
    BuildsTo L rootCtx (.custom ((fun (r : Except Err Str) => match r with | .ok t => .ret t | .error _ => .ret (lit "1")) (.error e))) (St.init dollar []) (.ok (lit "1"), St.init dollar []) :=
  ⟨_, by rfl, buildsTo_of_run (n := 50) (by kernel_rfl) (by simp)⟩

/-- **C38** A call of a function that was added last, in a template that is built with the new context, is a call of
that function; all other names are called as in the old context. -/
theorem C38_calls_reach_the_nearest (L : GoLib) (ctx ctx' : Ctx) (fm : FuncMap) (hm : IsMap fm)
    (hc : contextWithFuncs L ctx fm = .ok ctx') (name : Str) (as : List CallArg) (fi : FuncInfo)
    (hf : (∃ ins v outs body, (name, FuncVal.func ins v outs body) ∈ fm ∧ fi = ⟨name, ins, v, outs, body⟩) ∨
      (name ∉ fm.map (·.1) ∧ ctx.fn name = some fi))
    (s s' : St) (t : Str) (h : Evals L ctx' (.call fi as) s (.ok t, s')) :
    Evals L ctx' (.clause [.call name as]) s (.ok t, s') := by
  have hfn : ctx'.fn name = some fi := by
    obtain ⟨h1, h2⟩ := C38_nearest_definition_wins L ctx ctx' fm hm hc name
    rcases hf with ⟨ins, v, outs, body, hf, rfl⟩ | ⟨hf, hf'⟩
    · exact h1 _ _ _ _ hf
    · rw [h2 hf, hf']
  refine ⟨by simp, ev_run_clause_single ?_⟩
  obtain ⟨-, N, hN⟩ := h
  refine ⟨N, fun n hn => ?_⟩
  have := hN (n + 1) (by omega)
  show (match ctx'.fn name with
    | none => M.err (.undefinedFunc name)
    | some f => evalCall L (run L n) n ctx' f as) s = _
  rw [hfn]
  exact this

/-- `join` is shadowed, `arg` is not. -/
example (L : GoLib) : ∃ ctx', contextWithFuncs L rootCtx [(lit "join", .func [] false [.string 0] (.custom fun _ => .ret (lit "x")))] = .ok ctx' ∧
    Evals L ctx' (.call ⟨lit "join", [], false, [.string 0], .custom fun _ => .ret (lit "x")⟩ []) (St.init dollar []) (.ok (lit "x"), St.init dollar []) ∧
    lit "arg" ∉ [lit "join"] ∧ (∃ fi, rootCtx.fn (lit "arg") = some fi) :=
  ⟨_, by rfl, evals_of_run (n := 50) (by kernel_rfl) (by simp), by decide, _, by rfl⟩

private theorem derives_fn {L : GoLib} {c c' : Ctx} {fms : List FuncMap} (h : Derives L c fms c') {name : Str}
    (hn : ∀ fm ∈ fms, name ∉ fm.map (·.1)) : c'.fn name = c.fn name := by
  induction h with
  | nil => rfl
  | cons hm hc _ ih =>
    rw [ih fun fm h => hn fm (by simp [h]), (C38_nearest_definition_wins L _ _ _ hm hc name).2 (hn _ (by simp))]

private theorem trim_decorate (t : Str) : decorate [] [] t = trimSpace t := by
  by_cases h : trimSpace t = [] <;> simp [decorate, h]

/-- **C38** A function is seen in all templates that are built with a context derived from the one it was added to,
however many contexts are in between and however deep the templates are nested, unless it is shadowed. -/
theorem C38_seen_at_any_depth (L : GoLib) (c c1 c2 : Ctx) (fm : FuncMap) (hm : IsMap fm)
    (hc : contextWithFuncs L c fm = .ok c1) (fms : List FuncMap) (hd : Derives L c1 fms c2) (name t : Str)
    (hin : (name, FuncVal.func [] false [.string 0] (.custom fun _ => .ret t)) ∈ fm)
    (hn : ∀ g ∈ fms, name ∉ g.map (·.1)) (ht : trimSpace t = t)
    (hb : BuiltIn L c2 (lit "f")) (raw : Str) (hp : parse L raw = .ok [.call name []])
    (depth : Nat) (s : St) : BuildsTo L c2 (inside depth (.frag (.F raw))) s (.ok t, s) := by
  have hfn : c2.fn name = some ⟨name, [], false, [.string 0], .custom fun _ => .ret t⟩ := by
    rw [derives_fn hd hn]
    exact (C38_nearest_definition_wins L _ _ _ hm hc name).1 _ _ _ _ hin
  -- in every frame
  have key : ∀ (depth : Nat) (fr : Option Frame) (s : St),
      BuildsTo L { c2 with frame := fr } (inside depth (.frag (.F raw))) s (.ok t, s) := by
    intro depth
    induction depth with
    | zero =>
      intro fr s
      refine buildsTo_iff.2 ⟨by simp, ?_⟩
      have := Ev.fragment (L := L) (ctx := { c2 with frame := fr }) (f := .F raw) (s := s) (s1 := s.fresh) (body := t ++ []) hp
        ?_ rfl
      · rw [List.append_nil] at this
        rw [show decorate (Fragment.F raw).pre (Fragment.F raw).suf t = t from (trim_decorate t).trans ht] at this
        exact this
      · refine ⟨0, fun n _ => ?_⟩
        have he : evalExpr L (run L n) n (({ c2 with frame := fr } : Ctx).withFragment (.F raw)) (.call name []) s.fresh =
            (.ok t, s.fresh) := by
          have hfn' : (({ c2 with frame := fr } : Ctx).withFragment (.F raw)).fn name =
              some ⟨name, [], false, [.string 0], .custom fun _ => .ret t⟩ := hfn
          show (match (({ c2 with frame := fr } : Ctx).withFragment (.F raw)).fn name with
            | none => M.err (.undefinedFunc name)
            | some f => evalCall L (run L n) n _ f []) s.fresh = _
          rw [hfn']
          rfl
        unfold buildClause
        dsimp only
        rw [bind_of_ok he]
        rfl
    | succ depth ih =>
      intro fr s
      have h1 := (ih (some ⟨[], [inside depth (.frag (.F raw))]⟩) { s with usedA := [], usedF := [0] }).2
      refine buildsTo_iff.2 ⟨by simp, ?_⟩
      have h2 : BuiltIn L (({ c2 with frame := fr } : Ctx).withFragment (.Ff (lit "#f1") [inside depth (.frag (.F raw))])) (lit "f") := hb
      have h3 := ev_frag_call (L := L) (s := s.fresh) (s1 := { s with usedA := [], usedF := [0] })
        (ctx := ({ c2 with frame := fr } : Ctx).withFragment (.Ff (lit "#f1") [inside depth (.frag (.F raw))])) rfl (.inl rfl) h2
        (as := [.num (.nat 1)]) (i := 1) rfl (c := inside depth (.frag (.F raw))) rfl h1
      have h4 := Ev.fragment (L := L) (f := .Ff (lit "#f1") [inside depth (.frag (.F raw))]) (s := s) (es := [.call (lit "f") [.num (.nat 1)]])
        (by kernel_rfl) (Ev.clause_cons (es := []) h3 (.const (M.pure []) _)) rfl
      rw [List.append_nil, show decorate (Fragment.Ff (lit "#f1") [inside depth (.frag (.F raw))]).pre
        (Fragment.Ff (lit "#f1") [inside depth (.frag (.F raw))]).suf t = t from (trim_decorate t).trans ht] at h4
      exact h4
  exact key depth c2.frame s

/-- `#join` replaced by a function that gives `x`, for the build of one fragment. -/
def shadowed : Builder := .custom (.buildWith [(lit "join", .func [] false [.string 0] (.custom fun _ => .ret (lit "x")))]
  (.frag (.F (lit "a#join()"))) fun | .ok t => .ret t | .error e => .fail e)

example (L : GoLib) : Returns L (.frag (.mk (lit "#f1 #join('#arg', ',', 1, 1) #f1") [.int 64 1] [shadowed] [] [])) question []
    (.ok (lit "ax ? ax", [.int 64 1])) := returns_of_buildQuery (n := 200) (by kernel_rfl) (by simp)

/-- Two contexts in between, three templates deep. -/
private def deepUser : Builder :=
  let again := fun (r : Except Err Str) => match r with | .ok t => Prog.ret t | .error e => Prog.fail e
  .custom (.buildWith [(lit "now", .func [] false [.string 0] (.custom fun _ => .ret (lit "NOW()")))]
    (.custom (.buildWith [(lit "g", .func [] false [.string 0] (.custom fun _ => .ret (lit "g")))]
      (.custom (.buildWith [(lit "h", .func [] false [.string 0] (.custom fun _ => .ret (lit "h")))]
        (inside 2 (.frag (.F (lit "#now()")))) again)) again)) again)

example (L : GoLib) : Returns L deepUser question [] (.ok (lit "NOW()", [])) :=
  returns_of_buildQuery (n := 200) (by kernel_rfl) (by simp)

example (L : GoLib) : ∃ c1 c2, contextWithFuncs L rootCtx [(lit "now", .func [] false [.string 0] (.custom fun _ => .ret (lit "NOW()")))] = .ok c1 ∧
    Derives L c1 [[(lit "g", .func [] false [.string 0] (.custom fun _ => .ret (lit "g")))]] c2 ∧
    BuiltIn L c2 (lit "f") ∧ trimSpace (lit "NOW()") = lit "NOW()" ∧ parse L (lit "#now()") = .ok [.call (lit "now") []] :=
  ⟨_, _, by rfl, .cons (by simp [IsMap]) (by rfl) (.nil _), ⟨_, newContext_eq L, by kernel_rfl⟩, by decide +kernel, by kernel_rfl⟩

/-! ## C84 -/

/-- **C84** A builder of the user that builds another one with its context and returns what it gets is as good as
that one: the same outcome and effects, in every context. -/
theorem C84_wrappers_are_transparent (L : GoLib) (ctx : Ctx) (b : Builder) (s : St) (r : Out Str × St)
    (h : BuildsTo L ctx b s r) :
    BuildsTo L ctx (.custom (.build b fun | .ok t => .ret t | .error e => .fail e)) s r := by
  obtain ⟨o, s'⟩ := r
  refine continues_of (ctx' := ctx) (k := fun | .ok t => .ret t | .error e => .fail e) (fun n => by rw [runProg]; rfl) h ?_
  cases o with
  | ok t => exact ⟨by simp, 1, fun n hn => by obtain ⟨n, rfl⟩ : ∃ m, n = m + 1 := ⟨n - 1, by omega⟩; rfl⟩
  | err e => exact ⟨by simp, 1, fun n hn => by obtain ⟨n, rfl⟩ : ∃ m, n = m + 1 := ⟨n - 1, by omega⟩; rfl⟩
  | panic p => rfl
  | oof => exact absurd rfl h.1

/-- A fragment that commits an argument. -/
example (L : GoLib) : BuildsTo L rootCtx (.frag (.mk (lit "a=?") [.int 64 1] [] [] [])) (St.init dollar [])
    (.ok (lit "a=$1"), after [.int 64 1]) := buildsTo_of_run (n := 50) (by kernel_rfl) (by simp)

/-- **C84** User code that builds several things with its context: they are built one after the other. -/
theorem C84_builds_in_order (L : GoLib) (ctx : Ctx) (b : Builder) (k : Except Err Str → Prog) (s s' : St) (o : Out Str)
    (h : BuildsTo L ctx b s (o, s')) (r : Out Str × St) (hk : Continues L ctx k o s' r) :
    BuildsTo L ctx (.custom (.build b k)) s r :=
  continues_of (ctx' := ctx) (fun n => by rw [runProg]; rfl) h hk

/-- Two fragments, the second after the first: the arguments are numbered in this order. -/
example (L : GoLib) : BuildsTo L rootCtx (.frag (.mk (lit "a=?") [.int 64 1] [] [] [])) (St.init dollar []) (.ok (lit "a=$1"), after [.int 64 1]) ∧
    Continues L rootCtx (fun
      | .ok t => .build (.frag (.mk (lit "b=?") [.int 64 2] [] [] [])) fun | .ok u => .ret (t ++ lit " " ++ u) | .error e => .fail e
      | .error e => .fail e) (.ok (lit "a=$1")) (after [.int 64 1]) (.ok (lit "a=$1 b=$2"), after [.int 64 1, .int 64 2]) :=
  ⟨buildsTo_of_run (n := 50) (by kernel_rfl) (by simp), buildsTo_of_run (n := 50) (by kernel_rfl) (by simp)⟩

/-- **C84** `CommitArg` adds the value to the arguments of the context and gives its placeholder; `Args` gives the
arguments committed so far. -/
theorem C84_commit_and_args (L : GoLib) (ctx : Ctx) (s : St) (r : Out Str × St) :
    (∀ v ph st k, s.store.commit v = some (ph, st) → BuildsTo L ctx (.custom (k ph)) { s with store := st } r →
      BuildsTo L ctx (.custom (.commit v k)) s r) ∧
    (∀ k, BuildsTo L ctx (.custom (k s.store.args)) s r → BuildsTo L ctx (.custom (.args k)) s r) := by
  refine ⟨?_, ?_⟩
  · rintro v ph st k hc ⟨h1, N, h2⟩
    refine ⟨h1, N + 1, fun n hn => ?_⟩
    obtain ⟨n, rfl⟩ : ∃ m, n = m + 1 := ⟨n - 1, by omega⟩
    have := h2 (n + 1) (by omega)
    rw [run_custom] at this ⊢
    rw [runProg]
    unfold M.bind commitArg
    rw [hc]
    exact this
  · rintro k ⟨h1, N, h2⟩
    refine ⟨h1, N + 1, fun n hn => ?_⟩
    obtain ⟨n, rfl⟩ : ∃ m, n = m + 1 := ⟨n - 1, by omega⟩
    exact h2 (n + 1) (by omega)

/-- A builder of the user with two builds, one of them a wrapper, and a value of its own. -/
def userBuilder : Builder :=
  .custom (.build (.custom (.build (.frag (.mk (lit "a=?") [.int 64 1] [] [] [])) fun | .ok t => .ret t | .error e => .fail e)) fun
    | .error e => .fail e
    | .ok t => .commit (.int 64 2) fun ph => .args fun vs => .ret (t ++ lit " AND b=" ++ ph ++ lit " /* " ++ itoa vs.length ++ lit " */"))

example (L : GoLib) : Returns L userBuilder dollar [] (.ok (lit "a=$1 AND b=$2 /* 2 */", [.int 64 1, .int 64 2])) :=
  returns_of_buildQuery (n := 200) (by kernel_rfl) (by simp)

end Sqlf.Props
