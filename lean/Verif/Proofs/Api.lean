import Verif.Spec.Outcome
import Verif.Proofs.Denote
import Verif.Proofs.SemRel
import Verif.Proofs.Fuel
import Verif.Proofs.History
import Verif.Spec.Template
import Verif.KernelRfl
/-!
# From the meaning of a tree to `BuildQuery`
-/

namespace Sqlf

open Spec

theorem lookupFn_cons (n : Str) (f : FuncInfo) (m : List (Str × FuncInfo)) (name : Str) :
    lookupFn ((n, f) :: m) name = if name = n then some f else lookupFn m name := by
  unfold lookupFn
  by_cases h : name = n
  · subst h; simp
  · have : ¬ n = name := fun hc => h hc.symm
    simp [h, this]

def builtinTable : List (Str × FuncInfo) :=
  [(lit "arg", indexInfo (lit "arg") .arg), (lit "f", indexInfo (lit "f") .fragment),
   (lit "fragment", indexInfo (lit "fragment") .fragment), (lit "join", joinInfo)]

/-- The context of `BuildQuery`. -/
def rootCtx : Ctx := { funcs := [builtinTable], frame := none }

theorem newContext_eq (L : GoLib) : newContext L = some rootCtx := by kernel_rfl

theorem rootCtx_builtin : BuiltinCtx rootCtx := by
  intro name
  unfold Ctx.fn rootCtx builtinTable
  simp only [List.findSome?, lookupFn_cons]
  split <;> rename_i h <;> revert h <;>
    repeat' split
  all_goals first | (intro h; cases h; rfl) | (intro h; simp [lookupFn] at h ⊢)

/-- An outcome of `BuildQuery` matches an outcome of the specification. -/
def OutMatches (ps : List Str) (args : List Val) : Res Doc → Out (Str × List Val) → Prop
  | .ok d, .ok r => r = (renderDoc ps d, args) ∧ InRange ps d
  | .invalidIndex, .err e => e.isInvalidIndex = true
  | .error, .err e => e.isInvalidIndex = false
  | .panic, .panic p => p.toErr.isInvalidIndex = false
  | _, _ => False

theorem buildsTo_of_run {L : GoLib} {ctx : Ctx} {b : Builder} {s : St} {r : Out Str × St} {n : Nat}
    (h : run L n ctx (.build b) s = r) (hne : r.1 ≠ .oof) : BuildsTo L ctx b s r := by
  refine ⟨hne, n, fun m hm => ?_⟩
  have := run_le L hm ctx (.build b) s (by rw [h]; exact hne)
  rw [this, h]

theorem buildsTo_unique {L : GoLib} {ctx : Ctx} {b : Builder} {s : St} {r r' : Out Str × St}
    (h : BuildsTo L ctx b s r) (h' : BuildsTo L ctx b s r') : r = r' := by
  obtain ⟨_, N, h⟩ := h
  obtain ⟨_, N', h'⟩ := h'
  rw [← h (max N N') (by omega), ← h' (max N N') (by omega)]

theorem returns_unique {L : GoLib} {b : Builder} {style : Style} {heap : List QB}
    {o o' : Out (Str × List Val)} (h : Returns L b style heap o) (h' : Returns L b style heap o') :
    o = o' := by
  obtain ⟨_, N, h⟩ := h
  obtain ⟨_, N', h'⟩ := h'
  rw [← h (max N N') (by omega), ← h' (max N N') (by omega)]

/-- The outcome of `BuildQuery` from the outcome of the build. -/
def queryOut (r : Out Str × St) : Out (Str × List Val) :=
  match r with
  | (.ok q, s) => .ok (q, s.store.args)
  | (.err e, _) => .err e
  | (.panic p, _) => .panic p
  | (.oof, _) => .oof

theorem buildQueryS_eq (L : GoLib) (n : Nat) (b : Builder) (style : Style) (heap : List QB) :
    buildQueryS L n b style heap =
      (queryOut (run L n rootCtx (.build b) (St.init style heap)),
       (run L n rootCtx (.build b) (St.init style heap)).2) := by
  unfold buildQueryS queryOut
  rw [newContext_eq]
  dsimp only
  rcases run L n rootCtx (.build b) (St.init style heap) with ⟨o, s⟩
  cases o <;> rfl

theorem queryOut_oof {r : Out Str × St} : queryOut r = .oof ↔ r.1 = .oof := by
  rcases r with ⟨o, s⟩; cases o <;> simp [queryOut]

theorem returns_of_buildQuery {L : GoLib} {b : Builder} {style : Style} {heap : List QB}
    {o : Out (Str × List Val)} {n : Nat} (h : buildQuery L n b style heap = o) (hne : o ≠ .oof) :
    Returns L b style heap o := by
  refine ⟨hne, n, fun m hm => ?_⟩
  unfold buildQuery at h ⊢
  rw [buildQueryS_eq] at h ⊢
  dsimp only at h ⊢
  rw [run_le L hm rootCtx (.build b) _ (by rw [Ne, ← queryOut_oof, h]; exact hne), h]

theorem returns_iff_buildsTo {L : GoLib} {b : Builder} {style : Style} {heap : List QB}
    {o : Out (Str × List Val)} : Returns L b style heap o ↔
      ∃ r, BuildsTo L rootCtx b (St.init style heap) r ∧ o = queryOut r := by
  constructor
  · intro ⟨hne, N, h⟩
    have h1 := h N (Nat.le_refl _)
    unfold buildQuery at h1
    rw [buildQueryS_eq] at h1
    replace h1 : queryOut _ = o := h1
    exact ⟨_, buildsTo_of_run rfl (by rw [Ne, ← queryOut_oof, h1]; exact hne), h1.symm⟩
  · rintro ⟨r, ⟨hne, N, h⟩, rfl⟩
    refine ⟨by rw [Ne, queryOut_oof]; exact hne, N, fun n hn => ?_⟩
    unfold buildQuery
    rw [buildQueryS_eq, h n hn]

theorem badFor_new (style : Style) : badFor (Store.new style) = cannotCommit style := by
  funext v
  unfold badFor cannotCommit Store.new
  by_cases h : style = dollar <;> simp [h]

theorem matches_not_oof {ps : List Str} {r : Res Doc} {o : Out Str} (h : Matches ps r o) : o ≠ .oof := by
  rintro rfl; cases r <;> exact h

/-- The build of a tree in any context, against its meaning. -/
theorem buildsTo_tree (L : GoLib) {b : Builder} (ht : IsTree b) {ctx : Ctx} (hb : BuiltinCtx ctx)
    (s0 : Store) {ps : List Str} {s : St} {log : List Val}
    (hs : commitAll s0 log = some (ps, s.store)) :
    ∃ ps' st o, BuildsTo L ctx b s (o, { s with store := st }) ∧
      commitAll s0 (sem L (parseO L) (badFor s0) b log).2 = some (ps', st) ∧ ps <+: ps' ∧
      log <+: (sem L (parseO L) (badFor s0) b log).2 ∧
      Matches ps' (sem L (parseO L) (badFor s0) b log).1 o := by
  obtain ⟨ps', h1, h2, h3, h4, h5⟩ :=
    build_sim_at s0 L b ht (need b) (Nat.le_refl _) ctx hb ps s log hs
  refine ⟨ps', _, _, buildsTo_of_run (n := need b) ?_ (matches_not_oof h5), h1, h3, h4, h5⟩
  exact Prod.ext rfl h2

/-- `BuildQuery` of a tree, against its meaning. -/
theorem returns_tree (L : GoLib) {b : Builder} (ht : IsTree b) (style : Style) (heap : List QB) :
    ∃ ps st o, commitAll (Store.new style) (meaningOf L style b).2 = some (ps, st) ∧
      Returns L b style heap o ∧ OutMatches ps st.args (meaningOf L style b).1 o := by
  obtain ⟨ps, st, o, h1, h2, -, -, h5⟩ := buildsTo_tree L ht rootCtx_builtin (Store.new style)
    (ps := []) (s := St.init style heap) (log := []) rfl
  have hm : sem L (parseO L) (badFor (Store.new style)) b [] = meaningOf L style b := by
    rw [badFor_new]; rfl
  rw [hm] at h2 h5
  refine ⟨ps, st, queryOut (o, { St.init style heap with store := st }), h2,
    returns_iff_buildsTo.2 ⟨_, h1, rfl⟩, ?_⟩
  revert h5
  rcases (meaningOf L style b) with ⟨r, l⟩
  intro h5
  cases r <;> cases o <;> simp_all [Matches, OutMatches, queryOut]

theorem returns_ok {L : GoLib} {b : Builder} (ht : IsTree b) {style : Style} {heap : List QB}
    {q : Str} {as : List Val} (h : Returns L b style heap (.ok (q, as))) :
    ∃ d log ps st, meaningOf L style b = (.ok d, log) ∧
      commitAll (Store.new style) log = some (ps, st) ∧ InRange ps d ∧ q = renderDoc ps d ∧
      as = st.args := by
  obtain ⟨ps, st, o, h1, h2, h3⟩ := returns_tree L ht style heap
  cases returns_unique h h2
  rcases hm : meaningOf L style b with ⟨r, l⟩
  rw [hm] at h1 h3
  cases r with
  | ok d =>
    obtain ⟨h3, h4⟩ := h3
    simp only [Prod.mk.injEq] at h3
    exact ⟨d, l, ps, st, rfl, h1, h4, h3.1, h3.2⟩
  | invalidIndex => exact h3.elim
  | error => exact h3.elim
  | panic => exact h3.elim

theorem ok_returns {L : GoLib} {b : Builder} (ht : IsTree b) {style : Style} {heap : List QB}
    {d : Doc} {log : List Val} (h : meaningOf L style b = (.ok d, log)) :
    ∃ ps st, commitAll (Store.new style) log = some (ps, st) ∧ InRange ps d ∧
      Returns L b style heap (.ok (renderDoc ps d, st.args)) := by
  obtain ⟨ps, st, o, h1, h2, h3⟩ := returns_tree L ht style heap
  rw [h] at h1 h3
  cases o with
  | ok r => exact ⟨ps, st, h1, h3.2, by rw [← h3.1]; exact h2⟩
  | err e => exact h3.elim
  | panic p => exact h3.elim
  | oof => exact h3.elim

/-! ## Division of plain text -/

theorem clauseDoc_plain (bad : Val → Bool) (sc : Scope) (call : Str → List CallArg → Step Doc)
    (t : Str) (es : List Expr) :
    clauseDoc bad sc call (.plain t :: es) =
      (clauseDoc bad sc call es).bind fun d => .pure (Doc.ofStr t ++ d) := rfl

theorem Spec.Step.bind_assoc' (m : Step Doc) (a b : Doc) :
    (m.bind fun d => .pure (b ++ d)).bind (fun d => .pure (a ++ d)) =
      m.bind fun d => .pure ((a ++ b) ++ d) := by
  funext s
  unfold Step.bind Step.pure
  rcases m s with ⟨r, s'⟩
  cases r <;> simp

theorem Spec.Step.bind_nil (m : Step Doc) : (m.bind fun d => .pure (Doc.ofStr [] ++ d)) = m := by
  funext s
  unfold Step.bind Step.pure
  rcases m s with ⟨r, s'⟩
  cases r <;> rfl

theorem clauseDoc_glue (bad : Val → Bool) (sc : Scope) (call : Str → List CallArg → Step Doc)
    (es : List Expr) : clauseDoc bad sc call (glue es) = clauseDoc bad sc call es := by
  induction es with
  | nil => rfl
  | cons e es ih =>
    cases e with
    | plain t =>
      unfold glue
      by_cases ht : t = []
      · rw [if_pos ht, ih, ht, clauseDoc_plain, Step.bind_nil]
      · rw [if_neg ht]
        have hdef : ∀ r, clauseDoc bad sc call r = clauseDoc bad sc call es →
            clauseDoc bad sc call (.plain t :: r) = clauseDoc bad sc call (.plain t :: es) := by
          intro r hr; rw [clauseDoc_plain, clauseDoc_plain, hr]
        split
        · rename_i u r hg
          rw [← hdef (.plain u :: r) (by rw [← hg]; exact ih), clauseDoc_plain, clauseDoc_plain,
            clauseDoc_plain, Step.bind_assoc', ofStr_append]
        · exact hdef _ ih
    | bindVar t i => unfold glue clauseDoc; rw [ih]
    | call n as => unfold glue clauseDoc; rw [ih]
    | func n => unfold glue clauseDoc; rw [ih]

theorem returnsLeaving_of {L : GoLib} {b : Builder} {style : Style} {heap : List QB} {o : Out (Str × List Val)} {n : Nat}
    (h : (buildQueryS L n b style heap).1 = o) (hne : o ≠ .oof) :
    ReturnsLeaving L b style heap o (buildQueryS L n b style heap).2.heap := by
  refine ⟨hne, n, fun m hm => ?_⟩
  rw [buildQueryS_eq] at h ⊢
  rw [buildQueryS_eq]
  dsimp only at h ⊢
  rw [run_le L hm rootCtx (.build b) _ (by rw [Ne, ← queryOut_oof, h]; exact hne)]
  exact ⟨h, rfl⟩

end Sqlf
