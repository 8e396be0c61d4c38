import Verif.Proofs.Effects
/-!
# What is known about the arguments and fragments marked as used
-/

namespace Sqlf

open Spec

/-- An outcome that a `#join` does not take for its end. -/
def Sticky : Out α → Prop
  | .ok _ => False
  | .err e => e.isInvalidIndex = false
  | .panic p => p.toErr.isInvalidIndex = false
  | .oof => True

/-- `G` holds afterwards if it held before, unless the outcome is a failure that a `#join` does
not swallow. -/
structure MUse (G : List Nat → List Nat → Store → Prop) (m : M α) : Prop where
  out : ∀ s, G s.usedA s.usedF s.store →
    G (m s).2.usedA (m s).2.usedF (m s).2.store ∨ Sticky (m s).1

/-- What `G` must satisfy: it survives commits, and it holds after an argument or a fragment of
`fr` was marked and evaluated without such a failure. -/
structure UseRel (L : GoLib) (ctx : Ctx) (fr : Frame) (G : List Nat → List Nat → Store → Prop) : Prop where
  commit : ∀ {a f st st'}, G a f st → Commits st st' → G a f st'
  arg : ∀ {a f st k v p st'}, G a f st → fr.args[k]? = some v → st.commit v = some (p, st') →
    G (k :: a) f st'
  frag : ∀ {n : Nat} {k : Nat} {b : Builder} {s : St}, fr.frags[k]? = some b → G s.usedA s.usedF s.store →
    G s.usedA (k :: s.usedF) (run L n ctx (.build b) { s with usedF := k :: s.usedF }).2.store ∨
    Sticky (run L n ctx (.build b) { s with usedF := k :: s.usedF }).1

section
variable {L : GoLib} {ctx : Ctx} {fr : Frame} {G : List Nat → List Nat → Store → Prop}

theorem use_const (o : Out α) : MUse G (fun s => (o, s)) := ⟨fun _ h => .inl h⟩

theorem MUse.bind {m : M α} {k : α → M β} (h : MUse G m) (hk : ∀ a, MUse G (k a)) :
    MUse G (M.bind m k) := by
  refine ⟨fun s hs => ?_⟩
  have h1 := h.out s hs
  unfold M.bind
  rcases hm : m s with ⟨o, s'⟩
  rw [hm] at h1
  cases o with
  | ok a =>
    rcases h1 with h1 | h1
    · exact (hk a).out s' h1
    · exact h1.elim
  | err e => exact h1
  | panic p => exact h1
  | oof => exact h1

theorem MUse.wrapErr {m : M α} (w : Str) (h : MUse G m) : MUse G (.wrapErr w m) := by
  refine ⟨fun s hs => ?_⟩
  have h1 := h.out s hs
  unfold M.wrapErr
  rcases hm : m s with ⟨o, s'⟩
  rw [hm] at h1
  cases o <;> exact h1

theorem safeCall_use {m : M Str} (h : MUse G m) : MUse G (safeCall m) := by
  refine ⟨fun s hs => ?_⟩
  have h1 := h.out s hs
  unfold safeCall
  rcases hm : m s with ⟨o, s'⟩
  rw [hm] at h1
  cases o <;> exact h1

variable (hG : UseRel L ctx fr G)
include hG

theorem commitArg_use (v : Val) : MUse G (commitArg v) := by
  refine ⟨fun s hs => ?_⟩
  unfold commitArg
  cases h : s.store.commit v with
  | none => exact .inl hs
  | some r => exact .inl (hG.commit hs (.one h))

theorem argBuild_use (i : Int) : MUse G (argBuild fr i) := by
  unfold argBuild
  split
  · exact use_const _
  · rename_i k _
    refine ⟨fun s hs => ?_⟩
    simp only [Bind.bind, M.bind, markA, M.modify]
    cases hv : fr.args[k]? with
    | none => exact .inr rfl
    | some v =>
      dsimp only
      unfold commitArg
      dsimp only
      cases h : s.store.commit v with
      | none => exact .inr rfl
      | some r => exact .inl (hG.arg hs hv h)

theorem build_use (n : Nat) (b : Builder) : MUse G (run L n ctx (.build b)) := by
  refine ⟨fun s hs => .inl ?_⟩
  have h := (build_used L n ctx b).out s
  rw [h.1, h.2]
  exact hG.commit hs (run_commits L n ctx _ s)

theorem fragmentBuild_use (n : Nat) (i : Int) :
    MUse G (fragmentBuild (run L n) ctx fr i) := by
  unfold fragmentBuild
  split
  · exact use_const _
  · rename_i k _
    refine ⟨fun s hs => ?_⟩
    simp only [Bind.bind, M.bind, markF, M.modify]
    cases hb : fr.frags[k]? with
    | none => exact .inr rfl
    | some b =>
      dsimp only
      have hu := (build_used L n ctx b).out { s with usedF := k :: s.usedF }
      rw [hu.1, hu.2]
      exact hG.frag hb hs

theorem runProg_use (n : Nat) : ∀ p, MUse G (runProg L (run L n) ctx p) := by
  intro p
  refine ⟨fun s hs => .inl ?_⟩
  have h1 := (runProg_eff used_baseRel (fun ctx b => build_used L n ctx b) L ctx p).out s
  rw [h1.1, h1.2]
  exact hG.commit hs ((runProg_eff commits_effRel.toBaseRel
    (fun ctx b => ⟨fun s => run_commits L n ctx _ s⟩) L ctx p).out s)

omit hG in
theorem joinCompatible_use (rec : Rec) (f : FuncInfo) : MUse G (joinCompatible rec f) := by
  refine ⟨fun s hs => ?_⟩
  unfold joinCompatible
  split
  · exact .inl hs
  · dsimp only
    split <;> exact .inl hs

omit hG in
theorem joinCheck_use (rec : Rec) (ctx : Ctx) (es : List Expr) : MUse G (joinCheck rec ctx es) := by
  induction es with
  | nil => exact use_const _
  | cons e es ih =>
    cases e with
    | func name =>
      unfold joinCheck
      split
      · exact use_const _
      · refine MUse.bind (joinCompatible_use rec _) fun ok => ?_
        split
        · exact ih.bind fun n => use_const _
        · exact use_const _
    | _ => unfold joinCheck; exact ih

variable {n : Nat} (hc : ctx.frame = some fr)
  (ih : ∀ es, MUse G (run L n ctx (.clause es)))

omit hG in
include ih in
theorem joinLoop_use (es : List Expr) (sep : Str) (from_ to : Int) (m : Nat) (i : Int)
    (acc : Str) : MUse G (joinLoop (run L n) ctx es sep from_ to m i acc) := by
  induction m generalizing i acc with
  | zero => exact use_const _
  | succ m ihm =>
    refine ⟨fun s hs => ?_⟩
    have h1 := (ih (joinInst es i)).out s hs
    unfold joinLoop
    rcases hm : run L n ctx (.clause (joinInst es i)) s with ⟨o, s'⟩
    rw [hm] at h1
    cases o with
    | ok a =>
      rcases h1 with h1 | h1
      · dsimp only at h1 ⊢
        split
        · exact .inl h1
        · exact (ihm _ _).out s' h1
      · exact h1.elim
    | err e =>
      dsimp only at h1 ⊢
      split
      · rename_i he
        rcases h1 with h1 | h1
        · split <;> exact .inl h1
        · rw [Sticky, he] at h1; cases h1
      · exact h1
    | panic p => exact h1
    | oof => exact h1

omit hG in
include ih in
theorem funcJoin_use (fuel : Nat) (tmpl sep : Str) (is : List Int) :
    MUse G (funcJoin L (run L n) fuel ctx tmpl sep is) := by
  unfold funcJoin
  split
  · exact use_const _
  · dsimp only
    split
    · exact use_const _
    · split
      · exact use_const _
      · refine MUse.bind (joinCheck_use _ ctx _) fun k => ?_
        split
        · exact use_const _
        · exact joinLoop_use ih ..

include hc ih

omit hG ih in
theorem mustFragment_bind (k : Frame → M α) : (mustFragment ctx >>= k) = k fr := by
  unfold mustFragment; rw [hc]; rfl

theorem callBody_use (fuel : Nat) (body : Body) (vs : List ArgVal) :
    MUse G (callBody L (run L n) fuel ctx body vs) := by
  unfold callBody
  split
  · rw [mustFragment_bind hc]; exact argBuild_use hG _
  · rw [mustFragment_bind hc]; exact fragmentBuild_use hG n _
  · exact funcJoin_use ih ..
  · exact runProg_use hG n _

theorem evalCall_use (fuel : Nat) (f : FuncInfo) (args : List CallArg) :
    MUse G (evalCall L (run L n) fuel ctx f args) := by
  unfold evalCall
  split
  · exact use_const _
  · dsimp only
    split
    · exact use_const _
    · exact use_const _
    · exact use_const _
    · refine MUse.wrapErr _ (safeCall_use ?_)
      split
      · exact (callBody_use hG hc ih fuel _ _).bind fun s => use_const _
      · exact use_const _

theorem evalExpr_use (fuel : Nat) (e : Expr) : MUse G (evalExpr L (run L n) fuel ctx e) := by
  unfold evalExpr
  split
  · exact use_const _
  · rw [mustFragment_bind hc]
    split
    · exact use_const _
    · exact argBuild_use hG _
  · unfold evalFunction
    split
    · exact use_const _
    · exact evalCall_use hG hc ih ..
  · exact use_const _

theorem buildClause_use (fuel : Nat) (es : List Expr) :
    MUse G (buildClause L (run L n) fuel ctx es) := by
  induction es with
  | nil => exact use_const _
  | cons e es ihe =>
    exact (evalExpr_use hG hc ih fuel e).bind fun s => ihe.bind fun t => use_const _

end

theorem run_clause_use {L : GoLib} {ctx : Ctx} {fr : Frame}
    {G : List Nat → List Nat → Store → Prop} (hG : UseRel L ctx fr G) (n : Nat) (hc : ctx.frame = some fr) (es : List Expr) :
    MUse G (run L n ctx (.clause es)) := by
  induction n generalizing es with
  | zero => exact use_const _
  | succ n ih => exact buildClause_use hG hc ih n es

theorem firstUnused_none {used : List Nat} {n : Nat} :
    firstUnused used n = none ↔ ∀ k, k < n → k ∈ used := by
  induction n with
  | zero => simp [firstUnused]
  | succ n ih =>
    unfold firstUnused
    cases h : firstUnused used n with
    | some i =>
      simp only [reduceCtorEq, false_iff]
      intro hall
      rw [h] at ih
      exact absurd (ih.2 fun k hk => hall k (by omega)) (by simp)
    | none =>
      have := ih.1 h
      by_cases hn : n ∈ used
      · simp only [hn, if_true, true_iff]
        intro k hk
        by_cases hkn : k = n
        · exact hkn ▸ hn
        · exact this k (by omega)
      · simp only [hn, if_false, reduceCtorEq, false_iff]
        exact fun hall => hn (hall n (by omega))

/-- If a fragment is built, `G` holds for the marks of all its arguments and fragments. -/
theorem buildFragment_use {L : GoLib} {ctx : Ctx} {f : Fragment}
    {G : List Nat → List Nat → Store → Prop}
    (hG : UseRel L (ctx.withFragment f) ⟨f.args, f.frags⟩ G) (n m : Nat) (s s' : St) (t : Str)
    (h0 : G [] [] s.store) (h : buildFragment L (run L n) m ctx f s = (.ok t, s')) :
    ∃ ua uf, G ua uf s'.store ∧ (∀ k, k < f.args.length → k ∈ ua) ∧
      (∀ k, k < f.frags.length → k ∈ uf) := by
  unfold buildFragment withFreshUsage at h
  dsimp only at h
  unfold buildBody at h
  cases hp : parse L f.raw with
  | error e => rw [hp] at h; simp [M.err] at h
  | ok es =>
    rw [hp] at h
    dsimp only at h
    have h1 := (MUse.wrapErr f.raw (buildClause_use hG (n := n) (ctx := ctx.withFragment f) rfl
      (run_clause_use hG n rfl) m es)).out { s with usedA := [], usedF := [] } h0
    unfold M.bind at h
    revert h
    rcases hm : M.wrapErr f.raw (buildClause L (run L n) m (ctx.withFragment f) es)
      { s with usedA := [], usedF := [] } with ⟨o, s1⟩
    rw [hm] at h1
    intro h
    cases o with
    | ok body =>
      rcases h1 with h1 | h1
      · dsimp only at h h1
        cases hu : checkUsage { args := f.args, frags := f.frags } s1 with
        | some e => rw [hu] at h; simp at h
        | none =>
          rw [hu] at h
          simp only [Prod.mk.injEq] at h
          obtain ⟨-, rfl⟩ := h
          refine ⟨s1.usedA, s1.usedF, h1, ?_⟩
          unfold checkUsage at hu
          cases ha : firstUnused s1.usedA f.args.length with
          | some i => rw [ha] at hu; cases hu
          | none =>
            cases hf : firstUnused s1.usedF f.frags.length with
            | some i => rw [ha] at hu; dsimp only at hu; rw [hf] at hu; cases hu
            | none => exact ⟨firstUnused_none.1 ha, firstUnused_none.1 hf⟩
      · exact h1.elim
    | err e => simp at h
    | panic e => simp at h
    | oof => simp at h

end Sqlf
