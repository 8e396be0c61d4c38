import Verif.Proofs.Usage
import Verif.Proofs.Scope
import Verif.Proofs.Api
import Verif.Spec.Tidy
/-!
# Builds in any context, with user code and query builders
-/

namespace Sqlf

open Spec

theorem buildsTo_frag {L : GoLib} {ctx : Ctx} {f : Fragment} {s : St} {r : Out Str × St}
    (h : BuildsTo L ctx (.frag f) s r) : ∃ n, buildFragment L (run L n) n ctx f s = r := by
  obtain ⟨-, N, h⟩ := h
  exact ⟨N, h (N + 1) (by omega)⟩

theorem buildsTo_frag_of {L : GoLib} {ctx : Ctx} {f : Fragment} {s : St} {r : Out Str × St} {n : Nat}
    (h : buildFragment L (run L n) n ctx f s = r) (hne : r.1 ≠ .oof) :
    BuildsTo L ctx (.frag f) s r := buildsTo_of_run (n := n + 1) h hne

theorem column_eq_frag (L : GoLib) (ctx : Ctx) (t : Str) (f : Fragment) (s : St)
    (r : Out Str × St) : BuildsTo L ctx (.column t f) s r ↔ BuildsTo L ctx (.frag f) s r := by
  have h : ∀ n, run L n ctx (.build (.column t f)) s = run L n ctx (.build (.frag f)) s := by
    intro n; cases n <;> rfl
  unfold BuildsTo
  simp only [h]

/-- The state in which the body of a fragment starts. -/
def St.fresh (s : St) : St := { s with usedA := [], usedF := [] }

theorem wrapErr_ok {m : M α} {w : Str} {s s' : St} {a : α} :
    M.wrapErr w m s = (.ok a, s') ↔ m s = (.ok a, s') := by
  unfold M.wrapErr
  rcases m s with ⟨o, s1⟩
  cases o <;> simp

theorem bind_ok {m : M α} {k : α → M β} {s s' : St} {b : β} (h : M.bind m k s = (.ok b, s')) :
    ∃ a s1, m s = (.ok a, s1) ∧ k a s1 = (.ok b, s') := by
  unfold M.bind at h
  rcases hm : m s with ⟨o, s1⟩
  rw [hm] at h
  cases o with
  | ok a => exact ⟨a, s1, rfl, h⟩
  | err e => simp at h
  | panic p => simp at h
  | oof => simp at h

theorem bind_of_ok {m : M α} {k : α → M β} {s s1 : St} {a : α} (h : m s = (.ok a, s1)) :
    M.bind m k s = k a s1 := by
  unfold M.bind; rw [h]

theorem safeCall_ok {m : M Str} {s s' : St} {t : Str} :
    safeCall m s = (.ok t, s') ↔ m s = (.ok t, s') := by
  unfold safeCall
  rcases m s with ⟨o, s1⟩
  cases o <;> simp

theorem buildBody_ok {L : GoLib} {rec : Rec} {m : Nat} {ctx : Ctx} {f : Fragment} {s s' : St}
    {t : Str} : buildBody L rec m ctx f s = (.ok t, s') ↔
    ∃ es body, parse L f.raw = .ok es ∧ buildClause L rec m ctx es s = (.ok body, s') ∧
      t = decorate f.pre f.suf body ∧ checkUsage ⟨f.args, f.frags⟩ s' = none := by
  constructor
  · intro h
    unfold buildBody at h
    cases hp : parse L f.raw with
    | error e => rw [hp] at h; simp [M.err] at h
    | ok es =>
      rw [hp] at h
      obtain ⟨body, s1, h1, h2⟩ := bind_ok h
      cases hu : checkUsage ⟨f.args, f.frags⟩ s1 with
      | some e => rw [hu] at h2; simp at h2
      | none =>
        rw [hu] at h2
        simp only [Prod.mk.injEq, Out.ok.injEq] at h2
        obtain ⟨rfl, rfl⟩ := h2
        exact ⟨es, body, rfl, wrapErr_ok.1 h1, rfl, hu⟩
  · rintro ⟨es, body, h1, h2, rfl, h4⟩
    unfold buildBody
    rw [h1]
    dsimp only
    refine (bind_of_ok (wrapErr_ok.2 h2)).trans ?_
    rw [h4]

theorem buildFragment_ok {L : GoLib} {rec : Rec} {m : Nat} {ctx : Ctx} {f : Fragment} {s s' : St}
    {t : Str} : buildFragment L rec m ctx f s = (.ok t, s') ↔
    ∃ es body s1, parse L f.raw = .ok es ∧
      buildClause L rec m (ctx.withFragment f) es s.fresh = (.ok body, s1) ∧
      t = decorate f.pre f.suf body ∧ checkUsage ⟨f.args, f.frags⟩ s1 = none ∧
      s' = setUsed s1 s.usedA s.usedF := by
  unfold buildFragment withFreshUsage
  dsimp only
  constructor
  · intro h
    rcases hm : buildBody L rec m (ctx.withFragment f) f s.fresh with ⟨o, s1⟩
    change ((buildBody L rec m (ctx.withFragment f) f s.fresh).1,
      setUsed (buildBody L rec m (ctx.withFragment f) f s.fresh).2 s.usedA s.usedF) = _ at h
    rw [hm] at h
    simp only [Prod.mk.injEq] at h
    obtain ⟨rfl, rfl⟩ := h
    obtain ⟨es, body, h1, h2, h3, h4⟩ := buildBody_ok.1 hm
    exact ⟨es, body, s1, h1, h2, h3, h4, rfl⟩
  · rintro ⟨es, body, s1, h1, h2, h3, h4, rfl⟩
    have := buildBody_ok.2 ⟨es, body, h1, h2, h3, h4⟩
    change ((buildBody L rec m (ctx.withFragment f) f s.fresh).1,
      setUsed (buildBody L rec m (ctx.withFragment f) f s.fresh).2 s.usedA s.usedF) = _
    rw [this]

/-- A clause is built only if each of its expressions is. -/
theorem buildClause_ok_mem {L : GoLib} {rec : Rec} {m : Nat} {ctx : Ctx} {es : List Expr} {s s' : St}
    {t : Str} (h : buildClause L rec m ctx es s = (.ok t, s')) :
    ∀ e ∈ es, ∃ s1 t1 s2, evalExpr L rec m ctx e s1 = (.ok t1, s2) := by
  induction es generalizing s t with
  | nil => simp
  | cons e es ih =>
    obtain ⟨a, s1, h1, h2⟩ := bind_ok h
    obtain ⟨b, s2, h3, h4⟩ := bind_ok h2
    simp only [M.pure, Prod.mk.injEq, Out.ok.injEq] at h4
    obtain ⟨-, rfl⟩ := h4
    intro e' he
    rcases List.mem_cons.1 he with rfl | he
    · exact ⟨s, a, s1, h1⟩
    · exact ih h3 e' he

theorem position_none {i : Int} {n : Nat} : position i n = none ↔ i < 1 ∨ i > n := by
  unfold position; split <;> simp_all

theorem evalExpr_bindVar_ok {L : GoLib} {rec : Rec} {m : Nat} {ctx : Ctx} {fr : Frame}
    (hc : ctx.frame = some fr) {b : Style} {i : Int} {s s' : St} {t : Str}
    (h : evalExpr L rec m ctx (.bindVar b i) s = (.ok t, s')) : 1 ≤ i ∧ i ≤ fr.args.length := by
  have hE : evalExpr L rec m ctx (.bindVar b i) = match position i fr.args.length with
      | none => .err (.bindVarIndex i)
      | some _ => argBuild fr i := mustFragment_bind hc _
  rw [hE] at h
  cases hp : position i fr.args.length with
  | none => rw [hp] at h; simp [M.err] at h
  | some k =>
    have : ¬ (i < 1 ∨ i > fr.args.length) := fun hc => by rw [position_none.2 hc] at hp; cases hp
    omega

theorem argBuild_ok {fr : Frame} {i : Int} {s s' : St} {t : Str}
    (h : argBuild fr i s = (.ok t, s')) : 1 ≤ i ∧ i ≤ fr.args.length := by
  unfold argBuild at h
  cases hp : position i fr.args.length with
  | none => rw [hp] at h; simp [M.err] at h
  | some k =>
    have : ¬ (i < 1 ∨ i > fr.args.length) := fun hc => by rw [position_none.2 hc] at hp; cases hp
    omega

theorem fragmentBuild_ok {rec : Rec} {ctx : Ctx} {fr : Frame} {i : Int} {s s' : St} {t : Str}
    (h : fragmentBuild rec ctx fr i s = (.ok t, s')) : 1 ≤ i ∧ i ≤ fr.frags.length := by
  unfold fragmentBuild at h
  cases hp : position i fr.frags.length with
  | none => rw [hp] at h; simp [M.err] at h
  | some k =>
    have : ¬ (i < 1 ∨ i > fr.frags.length) := fun hc => by rw [position_none.2 hc] at hp; cases hp
    omega

theorem builtIn_fn {L : GoLib} {ctx : Ctx} {name : Str} (h : BuiltIn L ctx name) :
    ctx.fn name = rootCtx.fn name := by
  obtain ⟨c, h1, h2⟩ := h
  rw [newContext_eq] at h1
  cases h1
  exact h2

theorem onlyBuiltins_iff {L : GoLib} {ctx : Ctx} (h : OnlyBuiltins L ctx) : BuiltinCtx ctx := by
  obtain ⟨c, h1, h2⟩ := h
  rw [newContext_eq] at h1
  cases h1
  intro name
  rw [h2 name, rootCtx_builtin name]

theorem rootCtx_onlyBuiltins (L : GoLib) : OnlyBuiltins L rootCtx :=
  ⟨rootCtx, newContext_eq L, fun _ => rfl⟩

theorem rootCtx_index {name : Str} (hn : isListFunc name = true) : ∃ b,
    rootCtx.fn name = some (indexInfo name b) ∧
    (b = .arg ∧ name = lit "arg" ∨ b = .fragment ∧ name ≠ lit "arg") := by
  rw [rootCtx_builtin name]
  simp only [isListFunc, Bool.or_eq_true, decide_eq_true_eq] at hn
  rcases hn with (rfl | rfl) | rfl
  · exact ⟨.arg, rfl, .inl ⟨rfl, rfl⟩⟩
  · exact ⟨.fragment, rfl, .inr ⟨rfl, by decide⟩⟩
  · exact ⟨.fragment, rfl, .inr ⟨rfl, by decide⟩⟩

/-- A call of `#arg`, `#f` or `#fragment` succeeds only for an existing item. -/
theorem evalFunction_index_ok {L : GoLib} {rec : Rec} {m : Nat} {ctx : Ctx} {fr : Frame}
    (hc : ctx.frame = some fr) {name : Str} (hn : isListFunc name = true) (hb : BuiltIn L ctx name)
    {as : List CallArg} {s s' : St} {t : Str}
    (h : evalFunction L rec m ctx name as s = (.ok t, s')) :
    ∃ i, indexArg L as = some i ∧ 1 ≤ i ∧ i ≤ listLen fr.args.length fr.frags.length name := by
  unfold evalFunction at h
  rw [builtIn_fn hb] at h
  obtain ⟨b, hf, hbn⟩ := rootCtx_index hn
  rw [hf] at h
  dsimp only at h
  rcases evalCall_index L rec m ctx name b as with ⟨vs, h1, h2⟩ | ⟨h1, e, h2, h3⟩
  · rw [h2] at h
    obtain ⟨a, s1, h3, -⟩ := bind_ok (safeCall_ok.1 (wrapErr_ok.1 h))
    refine ⟨_, h1, ?_⟩
    rcases hbn with ⟨rfl, hn⟩ | ⟨rfl, hn⟩
    · unfold callBody at h3
      dsimp only at h3
      rw [mustFragment_bind hc] at h3
      rw [listLen, if_pos hn]
      exact argBuild_ok h3
    · unfold callBody at h3
      dsimp only at h3
      rw [mustFragment_bind hc] at h3
      rw [listLen, if_neg hn]
      exact fragmentBuild_ok h3
  · rw [h3] at h; simp [M.err] at h

end Sqlf
