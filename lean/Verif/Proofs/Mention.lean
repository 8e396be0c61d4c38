import Verif.Proofs.Ev
/-!
# Which arguments and fragments the expressions of a template mark as used
-/

namespace Sqlf

open Spec

theorem argBuild_used {fr : Frame} {i : Int} {s s' : St} {t : Str} (h : argBuild fr i s = (.ok t, s')) :
    1 ≤ i ∧ s'.usedA = (i - 1).toNat :: s.usedA ∧ s'.usedF = s.usedF := by
  have hr := argBuild_ok h
  unfold argBuild position at h
  rw [if_neg (by omega)] at h
  obtain ⟨u, s1, h1, h⟩ := bind_ok h
  simp only [markA, M.modify, Prod.mk.injEq, true_and] at h1
  subst h1
  refine ⟨hr.1, ?_⟩
  cases hv : fr.args[(i - 1).toNat]? with
  | none => rw [hv] at h; simp [M.panic] at h
  | some v =>
    rw [hv] at h
    simp only [commitArg] at h
    cases hc : s.store.commit v with
    | none => rw [hc] at h; simp at h
    | some p =>
      rw [hc] at h
      simp only [Prod.mk.injEq] at h
      obtain ⟨-, rfl⟩ := h
      exact ⟨rfl, rfl⟩

theorem fragmentBuild_used {L : GoLib} {n : Nat} {ctx : Ctx} {fr : Frame} {i : Int} {s s' : St} {t : Str}
    (h : fragmentBuild (run L n) ctx fr i s = (.ok t, s')) :
    1 ≤ i ∧ s'.usedF = (i - 1).toNat :: s.usedF ∧ s'.usedA = s.usedA := by
  have hr := fragmentBuild_ok h
  unfold fragmentBuild position at h
  rw [if_neg (by omega)] at h
  obtain ⟨u, s1, h1, h⟩ := bind_ok h
  simp only [markF, M.modify, Prod.mk.injEq, true_and] at h1
  subst h1
  refine ⟨hr.1, ?_⟩
  cases hv : fr.frags[(i - 1).toNat]? with
  | none => rw [hv] at h; simp [M.panic] at h
  | some b =>
    rw [hv] at h
    have := (build_used L n ctx b).out { s with usedF := (i - 1).toNat :: s.usedF }
    rw [show run L n ctx (.build b) { s with usedF := (i - 1).toNat :: s.usedF } = (.ok t, s') from h] at this
    exact ⟨this.2, this.1⟩

theorem index_used {L : GoLib} {n : Nat} {ctx : Ctx} {fr : Frame} (hc : ctx.frame = some fr) {name : Str}
    (hn : isListFunc name = true) (hb : BuiltIn L ctx name) {as : List CallArg} {s s' : St} {t : Str}
    (h : evalFunction L (run L n) n ctx name as s = (.ok t, s')) :
    ∃ i, indexArg L as = some i ∧ 1 ≤ i ∧
      s'.usedA = (if name = lit "arg" then (i - 1).toNat :: s.usedA else s.usedA) ∧
      s'.usedF = if name = lit "arg" then s.usedF else (i - 1).toNat :: s.usedF := by
  obtain ⟨i, hi, h1, -⟩ := evalFunction_index_ok hc hn hb h
  rw [evalFunction_index hc hn hb hi] at h
  obtain ⟨a, s1, h2, h3⟩ := bind_ok (safeCall_ok.1 (wrapErr_ok.1 h))
  simp only [M.pure, Prod.mk.injEq] at h3
  obtain ⟨-, rfl⟩ := h3
  refine ⟨i, hi, h1, ?_⟩
  split at h2
  · have := argBuild_used h2
    rw [if_pos ‹_›, if_pos ‹_›]
    exact this.2
  · have := fragmentBuild_used h2
    rw [if_neg ‹_›, if_neg ‹_›]
    exact ⟨this.2.2, this.2.1⟩

theorem bindVar_used {L : GoLib} {n : Nat} {ctx : Ctx} {fr : Frame} (hc : ctx.frame = some fr) {sty : Style} {i : Int}
    {s s' : St} {t : Str} (h : evalExpr L (run L n) n ctx (.bindVar sty i) s = (.ok t, s')) :
    1 ≤ i ∧ s'.usedA = (i - 1).toNat :: s.usedA ∧ s'.usedF = s.usedF := by
  unfold evalExpr at h
  dsimp only at h
  rw [mustFragment_bind hc] at h
  cases hp : position i fr.args.length with
  | none => rw [hp] at h; simp [M.err] at h
  | some k => rw [hp] at h; exact argBuild_used h

/-- Marks are never taken back. -/
theorem marks_effRel : EffRel fun s s' => (∀ k ∈ s.usedA, k ∈ s'.usedA) ∧ ∀ k ∈ s.usedF, k ∈ s'.usedF where
  refl _ := ⟨fun _ h => h, fun _ h => h⟩
  trans h h' := ⟨fun k hk => h'.1 k (h.1 k hk), fun k hk => h'.2 k (h.2 k hk)⟩
  commit _ _ _ _ _ := ⟨fun _ h => h, fun _ h => h⟩
  orders _ _ _ _ := ⟨fun _ h => h, fun _ h => h⟩
  selects _ _ _ _ _ := ⟨fun _ h => h, fun _ h => h⟩
  log _ _ _ _ _ _ := ⟨fun _ h => h, fun _ h => h⟩
  markA _ _ := ⟨fun _ h => .tail _ h, fun _ h => h⟩
  markF _ _ := ⟨fun _ h => h, fun _ h => .tail _ h⟩
  fresh _ _ _ := ⟨fun _ h => h, fun _ h => h⟩
  own _ _ _ _ := ⟨fun _ h => h, fun _ h => h⟩

theorem clause_split {L : GoLib} {rec : Rec} {m : Nat} {ctx : Ctx} {e : Expr} {es : List Expr} {s s' : St} {t : Str}
    (h : buildClause L rec m ctx (e :: es) s = (.ok t, s')) :
    ∃ u v s1, evalExpr L rec m ctx e s = (.ok u, s1) ∧ buildClause L rec m ctx es s1 = (.ok v, s') ∧ t = u ++ v := by
  obtain ⟨u, s1, h1, h⟩ := bind_ok h
  obtain ⟨v, s2, h2, h⟩ := bind_ok h
  simp only [M.pure, Prod.mk.injEq, Out.ok.injEq] at h
  obtain ⟨rfl, rfl⟩ := h
  exact ⟨u, v, s1, h1, h2, rfl⟩

/-- What an expression of the clause marks stays marked. -/
theorem clause_marks {L : GoLib} {n : Nat} {ctx : Ctx} {es : List Expr} {s s' : St} {t : Str}
    (h : buildClause L (run L n) n ctx es s = (.ok t, s')) {e : Expr} (he : e ∈ es) :
    ∃ u s1 s2, evalExpr L (run L n) n ctx e s1 = (.ok u, s2) ∧ (∀ k ∈ s2.usedA, k ∈ s'.usedA) ∧
      ∀ k ∈ s2.usedF, k ∈ s'.usedF := by
  induction es generalizing s t with
  | nil => cases he
  | cons e' es ih =>
    obtain ⟨u, v, s1, h1, h2, -⟩ := clause_split h
    rcases List.mem_cons.1 he with rfl | he
    · have := (buildClause_eff marks_effRel (run_eff marks_effRel L n) L n ctx es).out s1
      rw [h2] at this
      exact ⟨u, s, s1, h1, this⟩
    · exact ih h2 he

/-- No expression fails with an unused argument or fragment itself: such an error of a nested fragment is wrapped. -/
theorem evalExpr_err_shape {L : GoLib} {rec : Rec} {m : Nat} {ctx : Ctx} {e : Expr} {s s' : St} {er : Err}
    (h : evalExpr L rec m ctx e s = (.err er, s')) : ∀ i j, er ≠ .unused i j := by
  cases e with
  | plain t => simp [evalExpr, M.pure] at h
  | func name => simp only [evalExpr, M.err, Prod.mk.injEq, Out.err.injEq] at h; rw [← h.1]; simp
  | bindVar sty i =>
    unfold evalExpr mustFragment at h
    dsimp only at h
    cases hf : ctx.frame with
    | none =>
      simp only [hf, Bind.bind, M.bind, M.err, Prod.mk.injEq, Out.err.injEq] at h
      rw [← h.1]; simp
    | some fr =>
      simp only [hf, Bind.bind, M.bind, M.pure] at h
      cases hp : position i fr.args.length with
      | none => simp only [hp, M.err, Prod.mk.injEq, Out.err.injEq] at h; rw [← h.1]; simp
      | some k =>
        unfold argBuild at h
        simp only [hp, Bind.bind, M.bind, markA, M.modify] at h
        cases hv : fr.args[k]? with
        | none => rw [hv] at h; simp [M.panic] at h
        | some v =>
          rw [hv] at h
          simp only [commitArg] at h
          cases hc : s.store.commit v with
          | none => simp [hc] at h
          | some q => simp [hc] at h
  | call name args =>
    unfold evalExpr evalFunction at h
    cases hf : ctx.fn name with
    | none => simp only [hf, M.err, Prod.mk.injEq, Out.err.injEq] at h; rw [← h.1]; simp
    | some fi =>
      simp only [hf] at h
      unfold evalCall at h
      split at h
      · simp only [M.err, Prod.mk.injEq, Out.err.injEq] at h; rw [← h.1]; simp
      · dsimp only at h
        cases ha : evalArgs (fi.paramTypes args.length) args with
        | err e => simp only [ha, M.err, Prod.mk.injEq, Out.err.injEq] at h; rw [← h.1]; simp
        | panic p => simp [ha, M.panic] at h
        | oof => simp [ha] at h
        | ok vs =>
          simp only [ha] at h
          unfold M.wrapErr at h
          generalize safeCall _ s = r at h
          obtain ⟨o, s1⟩ := r
          cases o with
          | err e => simp only [Prod.mk.injEq, Out.err.injEq] at h; rw [← h.1]; simp
          | ok t => simp at h
          | panic p => simp at h
          | oof => simp at h

theorem buildClause_err_shape {L : GoLib} {rec : Rec} {m : Nat} {ctx : Ctx} {es : List Expr} {s s' : St} {er : Err}
    (h : buildClause L rec m ctx es s = (.err er, s')) : ∀ i j, er ≠ .unused i j := by
  induction es generalizing s with
  | nil => simp [buildClause, M.pure] at h
  | cons e es ih =>
    unfold buildClause M.bind at h
    rcases h1 : evalExpr L rec m ctx e s with ⟨o, s1⟩
    rw [h1] at h
    cases o with
    | ok u =>
      dsimp only at h
      rcases h2 : buildClause L rec m ctx es s1 with ⟨o, s2⟩
      rw [h2] at h
      cases o with
      | ok v => simp [M.pure] at h
      | err e' => simp only [Prod.mk.injEq, Out.err.injEq] at h; rw [← h.1]; rw [h.1] at h2; rw [h.1]; exact ih (h.2 ▸ h2)
      | panic p => simp at h
      | oof => simp at h
    | err e' => simp only [Prod.mk.injEq, Out.err.injEq] at h; rw [← h.1]; exact evalExpr_err_shape h1
    | panic p => simp at h
    | oof => simp at h

theorem firstUnused_some {used : List Nat} {len i : Nat} (hi : firstUnused used len = some i) :
    i < len ∧ i ∉ used ∧ ∀ j, j < i → j ∈ used := by
  induction len generalizing i with
  | zero => simp [firstUnused] at hi
  | succ len ih =>
    unfold firstUnused at hi
    cases h1 : firstUnused used len with
    | some j =>
      rw [h1] at hi
      simp only [Option.some.injEq] at hi
      subst hi
      have := ih h1
      exact ⟨by omega, this.2⟩
    | none =>
      rw [h1] at hi
      dsimp only at hi
      split at hi
      · cases hi
      · simp only [Option.some.injEq] at hi
        subst hi
        exact ⟨by omega, ‹_›, fun j hj => firstUnused_none.1 h1 j hj⟩

/-- What is reported as unused was not marked in the body, which was built without error. -/
theorem buildFragment_unused {L : GoLib} {n : Nat} {ctx : Ctx} {f : Fragment} {s s' : St} {w : Str} {i j : Option Nat}
    (h : buildFragment L (run L n) n ctx f s = (.err (.wrap w (.unused i j)), s')) :
    ∃ es body s1, parse L f.raw = .ok es ∧
      buildClause L (run L n) n (ctx.withFragment f) es s.fresh = (.ok body, s1) ∧
      i = (firstUnused s1.usedA f.args.length).map (· + 1) ∧
      j = (firstUnused s1.usedF f.frags.length).map (· + 1) ∧ (i ≠ none ∨ j ≠ none) := by
  unfold buildFragment withFreshUsage at h
  simp only [Prod.mk.injEq] at h
  obtain ⟨h, -⟩ := h
  unfold buildBody at h
  cases hp : parse L f.raw with
  | error e =>
    rw [hp] at h
    simp only [M.err, Out.err.injEq, Err.wrap.injEq] at h
    exact nomatch h.2
  | ok es =>
    rw [hp] at h
    dsimp only at h
    unfold M.bind M.wrapErr at h
    rcases hc : buildClause L (run L n) n (ctx.withFragment f) es s.fresh with ⟨o, s1⟩
    rw [show ({ s with usedA := [], usedF := [] } : St) = s.fresh from rfl, hc] at h
    cases o with
    | ok body =>
      refine ⟨es, body, s1, rfl, hc, ?_⟩
      dsimp only at h
      unfold checkUsage at h
      dsimp only at h
      cases ha : firstUnused s1.usedA f.args.length with
      | some k =>
        rw [ha] at h
        simp only [Out.err.injEq, Err.wrap.injEq, Err.unused.injEq] at h
        obtain ⟨-, rfl, rfl⟩ := h
        exact ⟨rfl, rfl, .inl (by simp)⟩
      | none =>
        rw [ha] at h
        dsimp only at h
        cases hf : firstUnused s1.usedF f.frags.length with
        | some k =>
          rw [hf] at h
          simp only [Out.err.injEq, Err.wrap.injEq, Err.unused.injEq] at h
          obtain ⟨-, rfl, rfl⟩ := h
          exact ⟨rfl, rfl, .inr (by simp)⟩
        | none => rw [hf] at h; simp at h
    | err e =>
      simp only [Out.err.injEq, Err.wrap.injEq] at h
      exact absurd h.2 (buildClause_err_shape hc _ _)
    | panic p => simp at h
    | oof => simp at h

end Sqlf
