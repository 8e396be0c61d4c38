import Verif.Proofs.AnyCtx
/-!
# Evaluation with enough fuel
-/

namespace Sqlf

open Spec

/-- With enough fuel, `m` run in `s` gives `r`. -/
def Ev (m : Nat → M α) (s : St) (r : Out α × St) : Prop := ∃ N, ∀ n, N ≤ n → m n s = r

theorem bind_of_err {m : M α} {k : α → M β} {s s1 : St} {e : Err} (h : m s = (.err e, s1)) :
    M.bind m k s = (.err e, s1) := by unfold M.bind; rw [h]

theorem bind_of_panic {m : M α} {k : α → M β} {s s1 : St} {p : Panic} (h : m s = (.panic p, s1)) :
    M.bind m k s = (.panic p, s1) := by unfold M.bind; rw [h]

theorem wrapErr_of_err {m : M α} {w : Str} {s s1 : St} {e : Err} (h : m s = (.err e, s1)) :
    M.wrapErr w m s = (.err (.wrap w e), s1) := by unfold M.wrapErr; rw [h]

theorem safeCall_of_err {m : M Str} {s s1 : St} {e : Err} (h : m s = (.err e, s1)) :
    safeCall m s = (.err e, s1) := by unfold safeCall; rw [h]

section
variable {α β : Type} {m : Nat → M α} {k : Nat → α → M β} {s s1 s' : St} {a : α}

theorem Ev.const (m : M α) (s : St) : Ev (fun _ => m) s (m s) := ⟨0, fun _ _ => rfl⟩

theorem Ev.congr {m' : Nat → M α} {r : Out α × St} (h : Ev m s r) (hm : ∀ n, m' n s = m n s) : Ev m' s r := by
  obtain ⟨N, h⟩ := h
  exact ⟨N, fun n hn => (hm n).trans (h n hn)⟩

theorem Ev.unique {r r' : Out α × St} (h : Ev m s r) (h' : Ev m s r') : r = r' := by
  obtain ⟨N, h⟩ := h
  obtain ⟨N', h'⟩ := h'
  rw [← h (max N N') (by omega), ← h' (max N N') (by omega)]

theorem Ev.bind {r : Out β × St} (h : Ev m s (.ok a, s1)) (hk : Ev (fun n => k n a) s1 r) :
    Ev (fun n => M.bind (m n) (k n)) s r := by
  obtain ⟨N, h⟩ := h
  obtain ⟨N', hk⟩ := hk
  exact ⟨max N N', fun n hn => (bind_of_ok (h n (by omega))).trans (hk n (by omega))⟩

theorem Ev.bind_err {e : Err} (h : Ev m s (.err e, s1)) :
    Ev (fun n => M.bind (m n) (k n)) s (.err e, s1) := by
  obtain ⟨N, h⟩ := h
  exact ⟨N, fun n hn => bind_of_err (h n hn)⟩

theorem Ev.bind_panic {p : Panic} (h : Ev m s (.panic p, s1)) :
    Ev (fun n => M.bind (m n) (k n)) s (.panic p, s1) := by
  obtain ⟨N, h⟩ := h
  exact ⟨N, fun n hn => bind_of_panic (h n hn)⟩

theorem Ev.wrapErr {w : Str} (h : Ev m s (.ok a, s')) :
    Ev (fun n => .wrapErr w (m n)) s (.ok a, s') := by
  obtain ⟨N, h⟩ := h
  exact ⟨N, fun n hn => wrapErr_ok.2 (h n hn)⟩

theorem Ev.wrapErr_err {w : Str} {e : Err} (h : Ev m s (.err e, s')) :
    Ev (fun n => .wrapErr w (m n)) s (.err (.wrap w e), s') := by
  obtain ⟨N, h⟩ := h
  exact ⟨N, fun n hn => wrapErr_of_err (h n hn)⟩

theorem Ev.safeCall {m : Nat → M Str} {t : Str} (h : Ev m s (.ok t, s')) :
    Ev (fun n => safeCall (m n)) s (.ok t, s') := by
  obtain ⟨N, h⟩ := h
  exact ⟨N, fun n hn => safeCall_ok.2 (h n hn)⟩

theorem Ev.safeCall_err {m : Nat → M Str} {e : Err} (h : Ev m s (.err e, s')) :
    Ev (fun n => Sqlf.safeCall (m n)) s (.err e, s') := by
  obtain ⟨N, h⟩ := h
  exact ⟨N, fun n hn => safeCall_of_err (h n hn)⟩

end

theorem Ev.run {L : GoLib} {ctx : Ctx} {t : Task} {s : St} {r : Out Str × St} :
    Ev (fun n => run L n ctx t) s r ↔ Ev (fun n => step L (run L n) n ctx t) s r := by
  constructor
  · rintro ⟨N, h⟩
    exact ⟨N, fun n hn => h (n + 1) (by omega)⟩
  · rintro ⟨N, h⟩
    refine ⟨N + 1, fun n hn => ?_⟩
    cases n with
    | zero => omega
    | succ n => exact h n (by omega)

theorem evals_iff {L : GoLib} {ctx : Ctx} {t : Task} {s : St} {r : Out Str × St} :
    Evals L ctx t s r ↔ r.1 ≠ .oof ∧ Ev (fun n => step L (run L n) n ctx t) s r := by
  unfold Evals
  rw [← Ev.run]; rfl

theorem buildsTo_iff {L : GoLib} {ctx : Ctx} {b : Builder} {s : St} {r : Out Str × St} :
    BuildsTo L ctx b s r ↔ r.1 ≠ .oof ∧ Ev (fun n => buildBuilder L (run L n) n ctx b) s r :=
  evals_iff (t := .build b)

theorem BuildsTo.ev {L : GoLib} {ctx : Ctx} {b : Builder} {s : St} {r : Out Str × St}
    (h : BuildsTo L ctx b s r) : Ev (fun n => Sqlf.run L n ctx (.build b)) s r := h.2

theorem Evals.ev {L : GoLib} {ctx : Ctx} {t : Task} {s : St} {r : Out Str × St}
    (h : Evals L ctx t s r) : Ev (fun n => Sqlf.run L n ctx t) s r := h.2

theorem evals_clause {L : GoLib} {ctx : Ctx} {es : List Expr} {s : St} {r : Out Str × St} :
    Evals L ctx (.clause es) s r ↔ r.1 ≠ .oof ∧ Ev (fun n => buildClause L (run L n) n ctx es) s r :=
  evals_iff (t := .clause es)

theorem evals_of_run {L : GoLib} {ctx : Ctx} {t : Task} {s : St} {r : Out Str × St} {n : Nat}
    (h : run L n ctx t s = r) (hne : r.1 ≠ .oof) : Evals L ctx t s r := by
  refine ⟨hne, n, fun m hm => ?_⟩
  have := run_le L hm ctx t s (by rw [h]; exact hne)
  rw [this, h]

/-! ## Clauses and fragments -/

section
variable {L : GoLib} {ctx : Ctx} {s s1 s2 s' : St}

theorem Ev.clause_cons {e : Expr} {es : List Expr} {t u : Str}
    (h1 : Ev (fun n => evalExpr L (Sqlf.run L n) n ctx e) s (.ok t, s1))
    (h2 : Ev (fun n => buildClause L (Sqlf.run L n) n ctx es) s1 (.ok u, s2)) :
    Ev (fun n => buildClause L (Sqlf.run L n) n ctx (e :: es)) s (.ok (t ++ u), s2) :=
  h1.bind (h2.bind (.const _ _))

theorem Ev.clause_err {e : Expr} {es : List Expr} {err : Err}
    (h1 : Ev (fun n => evalExpr L (Sqlf.run L n) n ctx e) s (.err err, s1)) :
    Ev (fun n => buildClause L (Sqlf.run L n) n ctx (e :: es)) s (.err err, s1) := h1.bind_err

theorem buildClause_append {rec : Rec} {m : Nat} (es es' : List Expr) (s : St) :
    buildClause L rec m ctx (es ++ es') s =
      M.bind (buildClause L rec m ctx es) (fun t =>
        M.bind (buildClause L rec m ctx es') fun u => .pure (t ++ u)) s := by
  induction es generalizing s with
  | nil =>
    simp only [List.nil_append, buildClause, M.bind, M.pure]
    rcases buildClause L rec m ctx es' s with ⟨o, s1⟩
    cases o <;> rfl
  | cons e es ih =>
    simp only [List.cons_append, buildClause]
    unfold M.bind
    rcases evalExpr L rec m ctx e s with ⟨o, s1⟩
    cases o with
    | ok t =>
      dsimp only
      rw [ih s1]
      unfold M.bind
      rcases buildClause L rec m ctx es s1 with ⟨o, s2⟩
      cases o with
      | ok u =>
        dsimp only [M.pure]
        rcases buildClause L rec m ctx es' s2 with ⟨o, s3⟩
        cases o <;> simp
      | err e => rfl
      | panic p => rfl
      | oof => rfl
    | err e => rfl
    | panic p => rfl
    | oof => rfl

theorem Ev.fragment_err {f : Fragment} {es : List Expr} {e : Err} (hp : parse L f.raw = .ok es)
    (h : Ev (fun n => buildClause L (Sqlf.run L n) n (ctx.withFragment f) es) s.fresh (.err e, s1)) :
    Ev (fun n => buildFragment L (Sqlf.run L n) n ctx f) s
      (.err (.wrap f.raw e), setUsed s1 s.usedA s.usedF) := by
  obtain ⟨N, h⟩ := h
  refine ⟨N, fun n hn => ?_⟩
  unfold buildFragment withFreshUsage
  change ((buildBody L (Sqlf.run L n) n (ctx.withFragment f) f s.fresh).1,
    setUsed (buildBody L (Sqlf.run L n) n (ctx.withFragment f) f s.fresh).2 s.usedA s.usedF) = _
  have : buildBody L (Sqlf.run L n) n (ctx.withFragment f) f s.fresh = (.err (.wrap f.raw e), s1) := by
    unfold buildBody
    rw [hp]
    exact bind_of_err (wrapErr_of_err (h n hn))
  rw [this]

theorem Ev.fragment {f : Fragment} {es : List Expr} {body : Str} (hp : parse L f.raw = .ok es)
    (h : Ev (fun n => buildClause L (Sqlf.run L n) n (ctx.withFragment f) es) s.fresh (.ok body, s1))
    (hu : checkUsage ⟨f.args, f.frags⟩ s1 = none) :
    Ev (fun n => buildFragment L (Sqlf.run L n) n ctx f) s
      (.ok (decorate f.pre f.suf body), setUsed s1 s.usedA s.usedF) := by
  obtain ⟨N, h⟩ := h
  exact ⟨N, fun n hn => buildFragment_ok.2 ⟨es, body, s1, hp, h n hn, rfl, hu, rfl⟩⟩

/-! ## Calls of built-in functions -/

theorem builtIn_withFragment {name : Str} (f : Fragment) (h : BuiltIn L ctx name) :
    BuiltIn L (ctx.withFragment f) name := h

theorem evalFunction_index {rec : Rec} {m : Nat} {fr : Frame} (hc : ctx.frame = some fr) {name : Str}
    (hn : isListFunc name = true) (hb : BuiltIn L ctx name) {as : List CallArg} {i : Int}
    (hi : indexArg L as = some i) :
    evalFunction L rec m ctx name as = .wrapErr name (safeCall (M.bind
      (if name = lit "arg" then argBuild fr i else fragmentBuild rec ctx fr i)
      fun s => .pure s)) := by
  unfold evalFunction
  rw [builtIn_fn hb]
  obtain ⟨b, hf, hbn⟩ := rootCtx_index hn
  rw [hf]
  dsimp only
  rcases evalCall_index L rec m ctx name b as with ⟨vs, h1, h2⟩ | ⟨h1, -⟩
  · rw [h2]
    rw [hi] at h1
    cases h1
    rcases hbn with ⟨rfl, hn⟩ | ⟨rfl, hn⟩
    · have : callBody L rec m ctx (.builtin .arg) vs = argBuild fr ((vs.getD 0 .context).toInt L) :=
        mustFragment_bind hc _
      rw [this, if_pos hn]; rfl
    · have : callBody L rec m ctx (.builtin .fragment) vs =
          fragmentBuild rec ctx fr ((vs.getD 0 .context).toInt L) :=
        mustFragment_bind hc _
      rw [this, if_neg hn]; rfl
  · rw [h1] at hi; cases hi

theorem item_position {i : Int} {l : List α} {a : α} (h : item? i l = some a) :
    position i l.length = some (i - 1).toNat ∧ l[(i - 1).toNat]? = some a := by
  unfold item? at h
  split at h
  · rename_i h1
    have := (List.getElem?_eq_some_iff.1 h).1
    refine ⟨?_, h⟩
    unfold position
    rw [if_neg (by omega)]
  · cases h

theorem fragmentBuild_item {rec : Rec} {fr : Frame} {i : Int} {c : Builder}
    (h : item? i fr.frags = some c) (s : St) :
    fragmentBuild rec ctx fr i s = rec ctx (.build c) { s with usedF := (i - 1).toNat :: s.usedF } := by
  obtain ⟨h1, h2⟩ := item_position h
  unfold fragmentBuild
  rw [h1]
  simp only [Bind.bind, M.bind, markF, M.modify]
  rw [h2]

theorem argBuild_item {fr : Frame} {i : Int} {v : Val} (h : item? i fr.args = some v) (s : St) :
    argBuild fr i s = commitArg v { s with usedA := (i - 1).toNat :: s.usedA } := by
  obtain ⟨h1, h2⟩ := item_position h
  unfold argBuild
  rw [h1]
  simp only [Bind.bind, M.bind, markA, M.modify]
  rw [h2]

theorem bind_pure (m : M α) : M.bind m (fun s => .pure s) = m := by
  funext s
  unfold M.bind
  rcases m s with ⟨o, s1⟩
  cases o <;> rfl

/-- `#f(i)` is the `i`-th fragment built in the same context. -/
theorem ev_frag_call {fr : Frame} (hc : ctx.frame = some fr) {name : Str}
    (hn : name = lit "f" ∨ name = lit "fragment") (hb : BuiltIn L ctx name) {as : List CallArg} {i : Int}
    (hi : indexArg L as = some i) {c : Builder} (hit : item? i fr.frags = some c) {t : Str}
    (h : Ev (fun n => Sqlf.run L n ctx (.build c)) { s with usedF := (i - 1).toNat :: s.usedF } (.ok t, s1)) :
    Ev (fun n => evalExpr L (Sqlf.run L n) n ctx (.call name as)) s (.ok t, s1) := by
  have hl : isListFunc name = true := by rcases hn with rfl | rfl <;> decide
  have hna : name ≠ lit "arg" := by rcases hn with rfl | rfl <;> decide
  have : ∀ n, evalExpr L (Sqlf.run L n) n ctx (.call name as) s =
      M.wrapErr name (safeCall (fragmentBuild (Sqlf.run L n) ctx fr i)) s := by
    intro n
    show evalFunction L (Sqlf.run L n) n ctx name as s = _
    rw [evalFunction_index hc hl hb hi, if_neg hna, bind_pure]
  refine Ev.congr ?_ this
  refine Ev.wrapErr (.safeCall ?_)
  obtain ⟨N, h⟩ := h
  exact ⟨N, fun n hn => (fragmentBuild_item hit s).trans (h n hn)⟩

theorem ev_frag_call_err {fr : Frame} (hc : ctx.frame = some fr) {name : Str}
    (hn : name = lit "f" ∨ name = lit "fragment") (hb : BuiltIn L ctx name) {as : List CallArg} {i : Int}
    (hi : indexArg L as = some i) {c : Builder} (hit : item? i fr.frags = some c) {e : Err}
    (h : Ev (fun n => Sqlf.run L n ctx (.build c)) { s with usedF := (i - 1).toNat :: s.usedF } (.err e, s1)) :
    Ev (fun n => evalExpr L (Sqlf.run L n) n ctx (.call name as)) s (.err (.wrap name e), s1) := by
  have hl : isListFunc name = true := by rcases hn with rfl | rfl <;> decide
  have hna : name ≠ lit "arg" := by rcases hn with rfl | rfl <;> decide
  have : ∀ n, evalExpr L (Sqlf.run L n) n ctx (.call name as) s =
      M.wrapErr name (safeCall (fragmentBuild (Sqlf.run L n) ctx fr i)) s := by
    intro n
    show evalFunction L (Sqlf.run L n) n ctx name as s = _
    rw [evalFunction_index hc hl hb hi, if_neg hna, bind_pure]
  refine Ev.congr ?_ this
  refine Ev.wrapErr_err (.safeCall_err ?_)
  obtain ⟨N, h⟩ := h
  exact ⟨N, fun n hn => (fragmentBuild_item hit s).trans (h n hn)⟩

/-- `#arg(i)` commits the `i`-th argument. -/
theorem ev_arg_call {fr : Frame} (hc : ctx.frame = some fr) (hb : BuiltIn L ctx (lit "arg"))
    {as : List CallArg} {i : Int} (hi : indexArg L as = some i) {v : Val}
    (hit : item? i fr.args = some v) {t : Str} {st : Store} (h : s.store.commit v = some (t, st)) :
    Ev (fun n => evalExpr L (Sqlf.run L n) n ctx (.call (lit "arg") as)) s
      (.ok t, { s with usedA := (i - 1).toNat :: s.usedA, store := st }) := by
  have : ∀ n, evalExpr L (Sqlf.run L n) n ctx (.call (lit "arg") as) s =
      M.wrapErr (lit "arg") (safeCall (argBuild fr i)) s := by
    intro n
    show evalFunction L (Sqlf.run L n) n ctx (lit "arg") as s = _
    rw [evalFunction_index hc (by decide) hb hi, if_pos rfl, bind_pure]
  refine Ev.congr ?_ this
  refine Ev.wrapErr (.safeCall ⟨0, fun n _ => ?_⟩)
  refine (argBuild_item hit s).trans ?_
  unfold commitArg
  dsimp only
  rw [h]

/-- A list function called with an index that does not exist. -/
theorem evalExpr_index_err {rec : Rec} {m : Nat} {fr : Frame} (hc : ctx.frame = some fr) {name : Str}
    (hn : isListFunc name = true) (hb : BuiltIn L ctx name) {as : List CallArg} {i : Int}
    (hi : indexArg L as = some i) (hr : i < 1 ∨ i > listLen fr.args.length fr.frags.length name) (s : St) :
    evalExpr L rec m ctx (.call name as) s = (.err (.wrap name (.invalidIndex i)), s) := by
  show evalFunction L rec m ctx name as s = _
  rw [evalFunction_index hc hn hb hi, bind_pure]
  unfold listLen at hr
  unfold M.wrapErr safeCall
  by_cases hna : name = lit "arg"
  · rw [if_pos hna] at hr ⊢
    unfold argBuild
    rw [position_none.2 hr]
    rfl
  · rw [if_neg hna] at hr ⊢
    unfold fragmentBuild
    rw [position_none.2 hr]
    rfl

end

/-! ## Panics -/

theorem safeCall_not_panic {m : M Str} {s s' : St} {p : Panic} : safeCall m s ≠ (.panic p, s') := by
  unfold safeCall
  rcases m s with ⟨o, s1⟩
  cases o <;> simp

theorem wrapErr_panic {m : M α} {w : Str} {s s' : St} {p : Panic}
    (h : M.wrapErr w m s = (.panic p, s')) : m s = (.panic p, s') := by
  unfold M.wrapErr at h
  rcases hm : m s with ⟨o, s1⟩
  rw [hm] at h
  cases o <;> simp_all

theorem bind_panic {m : M α} {k : α → M β} {s s' : St} {p : Panic} (h : M.bind m k s = (.panic p, s')) :
    m s = (.panic p, s') ∨ ∃ a s1, m s = (.ok a, s1) ∧ k a s1 = (.panic p, s') := by
  unfold M.bind at h
  rcases hm : m s with ⟨o, s1⟩
  rw [hm] at h
  cases o with
  | ok a => exact .inr ⟨a, s1, rfl, h⟩
  | err e => simp at h
  | panic p => exact .inl (by simpa using h)
  | oof => simp at h

theorem evalArg_panic {t : GoType} {a : CallArg} {p : Panic} (h : evalArg t a = .panic p) :
    p = .reflectConvert ∧ ((∃ x, a = .num x) ∨ ∃ i, a = .int i) ∧ ¬ ∃ k n, t = .num k n := by
  cases a <;> cases t <;> simp_all [evalArg]

theorem evalArgs_panic {ts : List GoType} {as : List CallArg} {p : Panic}
    (h : evalArgs ts as = .panic p) : p = .reflectConvert ∧ ∃ (k : Nat) (t : GoType) (a : CallArg),
      ts[k]? = some t ∧ as[k]? = some a ∧
      ((∃ x, a = .num x) ∨ ∃ i, a = .int i) ∧ ¬ ∃ k n, t = .num k n := by
  induction ts generalizing as with
  | nil => simp [evalArgs] at h
  | cons t ts ih =>
    cases as with
    | nil => simp [evalArgs] at h
    | cons a as =>
      unfold evalArgs at h
      cases he : evalArg t a with
      | ok v =>
        rw [he] at h
        dsimp only at h
        cases hr : evalArgs ts as with
        | ok vs => rw [hr] at h; cases h
        | err e => rw [hr] at h; cases h
        | panic q =>
          rw [hr] at h
          cases h
          obtain ⟨h1, k, h2⟩ := ih hr
          exact ⟨h1, k + 1, h2⟩
        | oof => rw [hr] at h; cases h
      | err e => rw [he] at h; cases h
      | panic q =>
        rw [he] at h
        cases h
        obtain ⟨h1, h2, h3⟩ := evalArg_panic he
        exact ⟨h1, 0, t, a, rfl, rfl, h2, h3⟩
      | oof => rw [he] at h; cases h

theorem paramTypes_get {f : FuncInfo} {n k : Nat} {t u : GoType} (hk : k < n)
    (h : (f.paramTypes n)[k]? = some t) (hu : paramType f k = some u) : t = u := by
  unfold FuncInfo.paramTypes FuncInfo.inContextFirst at h
  unfold paramType at hu
  simp only [decide_eq_true_eq, List.drop_one] at h
  dsimp only at hu
  revert h hu
  generalize (if f.ins.head? = some .context then f.ins.tail else f.ins) = ts
  intro hu h
  by_cases hv : f.variadic = true
  · rw [if_pos hv] at h
    by_cases hl : ts.length ≤ k + 1
    · rw [if_pos ⟨hv, hl⟩] at hu
      rw [List.getElem?_append_right (by simp; omega), hu, List.getElem?_replicate] at h
      split at h
      · simpa using h.symm
      · cases h
    · rw [if_neg (by simp [hl])] at hu
      rw [List.getElem?_append_left (by simp; omega), List.getElem?_dropLast, if_pos (by omega)] at h
      rw [h] at hu
      cases hu; rfl
  · rw [if_neg hv] at h
    rw [if_neg (by simp [hv])] at hu
    rw [h] at hu
    cases hu; rfl

theorem evalCall_panic {L : GoLib} {rec : Rec} {m : Nat} {ctx : Ctx} {f : FuncInfo}
    {as : List CallArg} {s s' : St} {p : Panic}
    (h : evalCall L rec m ctx f as s = (.panic p, s')) :
    p = .reflectConvert ∧ NumberMisplaced f as := by
  unfold evalCall at h
  split at h
  · simp [M.err] at h
  · dsimp only at h
    cases hq : evalArgs (f.paramTypes as.length) as with
    | err e => rw [hq] at h; simp [M.err] at h
    | panic q =>
      rw [hq] at h
      simp only [M.panic, Prod.mk.injEq, Out.panic.injEq] at h
      obtain ⟨rfl, -⟩ := h
      obtain ⟨h1, k, t, a, h2, h3, h4, h5⟩ := evalArgs_panic hq
      refine ⟨h1, k, a, h3, h4, ?_⟩
      rintro ⟨kind, name, hp⟩
      have := paramTypes_get (List.getElem?_eq_some_iff.1 h3).1 h2 hp
      exact h5 ⟨kind, name, this⟩
    | oof => rw [hq] at h; simp at h
    | ok vs => rw [hq] at h; exact absurd (wrapErr_panic h) safeCall_not_panic

theorem argBuild_panic {fr : Frame} {i : Int} {s s' : St} {p : Panic}
    (h : argBuild fr i s = (.panic p, s')) :
    p = .unhashableKey ∧ s.store.isDollar = true ∧ ∃ v ∈ fr.args, v.hashable = false := by
  unfold argBuild at h
  cases hp : position i fr.args.length with
  | none => rw [hp] at h; simp [M.err] at h
  | some k =>
    rw [hp] at h
    simp only [Bind.bind, M.bind, markA, M.modify] at h
    have hlt : k < fr.args.length := by
      unfold position at hp
      split at hp
      · cases hp
      · simp only [Option.some.injEq] at hp
        omega
    rw [List.getElem?_eq_getElem hlt] at h
    dsimp only at h
    unfold commitArg at h
    dsimp only at h
    cases hc : s.store.commit fr.args[k] with
    | some r => rw [hc] at h; simp at h
    | none =>
      rw [hc] at h
      simp only [Prod.mk.injEq, Out.panic.injEq] at h
      refine ⟨h.1.symm, ?_⟩
      unfold Store.commit at hc
      split at hc
      · rename_i hd
        refine ⟨hd, _, List.getElem_mem hlt, ?_⟩
        split at hc
        · rename_i hh; simpa using hh
        · split at hc <;> cases hc
      · cases hc

/-- What an expression that panics looks like. -/
theorem evalExpr_panic {L : GoLib} {rec : Rec} {m : Nat} {ctx : Ctx} {fr : Frame}
    (hc : ctx.frame = some fr) {e : Expr} {s s' : St} {p : Panic}
    (h : evalExpr L rec m ctx e s = (.panic p, s')) :
    (p = .unhashableKey ∧ (∃ b i, e = .bindVar b i) ∧ s.store.isDollar = true ∧
      ∃ v ∈ fr.args, v.hashable = false) ∨
    (p = .reflectConvert ∧ ∃ name as f, e = .call name as ∧ ctx.fn name = some f ∧
      NumberMisplaced f as) := by
  cases e with
  | plain t => simp [evalExpr, M.pure] at h
  | bindVar b i =>
    have hE : evalExpr L rec m ctx (.bindVar b i) = match position i fr.args.length with
      | none => .err (.bindVarIndex i)
      | some _ => argBuild fr i := mustFragment_bind hc _
    rw [hE] at h
    cases hp : position i fr.args.length with
    | none => rw [hp] at h; simp [M.err] at h
    | some k =>
      rw [hp] at h
      obtain ⟨h1, h2⟩ := argBuild_panic h
      exact .inl ⟨h1, ⟨b, i, rfl⟩, h2⟩
  | call name as =>
    change evalFunction L rec m ctx name as s = _ at h
    unfold evalFunction at h
    cases hf : ctx.fn name with
    | none => rw [hf] at h; simp [M.err] at h
    | some f =>
      rw [hf] at h
      obtain ⟨h1, h2⟩ := evalCall_panic h
      exact .inr ⟨h1, name, as, f, rfl, hf, h2⟩
  | func name => simp [evalExpr, M.err] at h

theorem buildClause_panic {L : GoLib} {n m : Nat} {ctx : Ctx} {es : List Expr}
    {s s' : St} {p : Panic} (h : buildClause L (run L n) m ctx es s = (.panic p, s')) :
    ∃ e ∈ es, ∃ s1, Commits s.store s1.store ∧ evalExpr L (run L n) m ctx e s1 = (.panic p, s') := by
  induction es generalizing s with
  | nil => simp [buildClause, M.pure] at h
  | cons e es ih =>
    rcases bind_panic h with h1 | ⟨a, s1, h1, h2⟩
    · exact ⟨e, by simp, s, .refl _, h1⟩
    · rcases bind_panic h2 with h3 | ⟨b, s2, -, h4⟩
      · obtain ⟨e', he', s3, h5, h6⟩ := ih h3
        have := (evalExpr_eff commits_effRel (fun ctx t => ⟨fun s => run_commits L n ctx t s⟩) L m ctx e).out s
        rw [h1] at this
        exact ⟨e', by simp [he'], s3, this.trans h5, h6⟩
      · simp [M.pure] at h4

theorem buildFragment_panic {L : GoLib} {n m : Nat} {ctx : Ctx} {f : Fragment} {s s' : St} {p : Panic}
    (h : buildFragment L (run L n) m ctx f s = (.panic p, s')) :
    ∃ es s1, parse L f.raw = .ok es ∧
      buildClause L (run L n) m (ctx.withFragment f) es s.fresh = (.panic p, s1) := by
  unfold buildFragment withFreshUsage at h
  dsimp only at h
  rcases hm : buildBody L (run L n) m (ctx.withFragment f) f s.fresh with ⟨o, s1⟩
  change ((buildBody L (run L n) m (ctx.withFragment f) f s.fresh).1,
    setUsed (buildBody L (run L n) m (ctx.withFragment f) f s.fresh).2 s.usedA s.usedF) = _ at h
  rw [hm] at h
  simp only [Prod.mk.injEq] at h
  obtain ⟨rfl, -⟩ := h
  unfold buildBody at hm
  cases hp : parse L f.raw with
  | error e => rw [hp] at hm; simp [M.err] at hm
  | ok es =>
    rw [hp] at hm
    rcases bind_panic hm with h1 | ⟨a, s2, h1, h2⟩
    · exact ⟨es, _, rfl, wrapErr_panic h1⟩
    · split at h2 <;> simp at h2

/-! ## Errors below a fragment -/

theorem Ev.clause_append_err {L : GoLib} {ctx : Ctx} {before after : List Expr} {e : Expr}
    {s s1 s2 : St} {t : Str} {err : Err}
    (h1 : Ev (fun n => buildClause L (Sqlf.run L n) n ctx before) s (.ok t, s1))
    (h2 : Ev (fun n => evalExpr L (Sqlf.run L n) n ctx e) s1 (.err err, s2)) :
    Ev (fun n => buildClause L (Sqlf.run L n) n ctx (before ++ e :: after)) s (.err err, s2) := by
  refine Ev.congr ?_ fun n => buildClause_append before (e :: after) s
  exact h1.bind (k := fun n t => M.bind (buildClause L (Sqlf.run L n) n ctx (e :: after))
    fun u => .pure (t ++ u)) (Ev.bind_err (Ev.clause_err h2))

theorem nests_err {L : GoLib} {ctx ctx' : Ctx} {b c : Builder} {s s' s2 : St} {e : Err}
    (h : Nests L ctx b s ctx' c s') (hc : BuildsTo L ctx' c s' (.err e, s2)) :
    ∃ e' s3, BuildsTo L ctx b s (.err e', s3) ∧ e'.isInvalidIndex = e.isInvalidIndex := by
  induction h with
  | here => exact ⟨e, s2, hc, rfl⟩
  | column _ ih =>
    obtain ⟨e', s3, h1, h2⟩ := ih hc
    exact ⟨e', s3, (column_eq_frag ..).2 h1, h2⟩
  | @frag ctx ctx' f s s1 s' b c before after name t as i hp hn hb hi hit hbefore _ ih =>
    obtain ⟨e', s3, h1, h2⟩ := ih hc
    have h3 := ev_frag_call_err (ctx := ctx.withFragment f) (fr := ⟨f.args, f.frags⟩) (s := s1) rfl hn
      (builtIn_withFragment f hb) hi hit h1.2
    have h4 := Ev.clause_append_err (after := after) (evals_clause.1 hbefore).2 h3
    exact ⟨_, _, buildsTo_iff.2 ⟨by simp, Ev.fragment_err hp h4⟩, h2⟩

end Sqlf
