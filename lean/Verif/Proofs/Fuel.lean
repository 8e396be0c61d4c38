import Verif.Model.Eval
/-!
# More fuel does not change a result
-/

namespace Sqlf

/-- `m2` agrees with `m1` wherever `m1` has a result. -/
def MLe (m1 m2 : M α) : Prop := ∀ s, (m1 s).1 ≠ .oof → m2 s = m1 s

def RecLe (r1 r2 : Rec) : Prop := ∀ ctx t, MLe (r1 ctx t) (r2 ctx t)

theorem MLe.refl (m : M α) : MLe m m := fun _ _ => rfl

theorem MLe.bind {m1 m2 : M α} {k1 k2 : α → M β} (h : MLe m1 m2) (hk : ∀ a, MLe (k1 a) (k2 a)) :
    MLe (M.bind m1 k1) (M.bind m2 k2) := by
  intro s hne
  unfold M.bind at hne ⊢
  rcases e1 : m1 s with ⟨o, s'⟩
  rw [e1] at hne
  have hs := h s
  rw [e1] at hs
  cases o with
  | ok a => rw [hs (by simp)]; exact hk a s' hne
  | err e => rw [hs (by simp)]
  | panic p => rw [hs (by simp)]
  | oof => exact absurd rfl hne

theorem MLe.wrapErr {m1 m2 : M α} (w : Str) (h : MLe m1 m2) : MLe (.wrapErr w m1) (.wrapErr w m2) := by
  intro s hne
  unfold M.wrapErr at hne ⊢
  rcases e1 : m1 s with ⟨o, s'⟩
  rw [e1] at hne
  have hs := h s
  rw [e1] at hs
  cases o with
  | ok a => rw [hs (by simp)]
  | err e => rw [hs (by simp)]
  | panic p => rw [hs (by simp)]
  | oof => exact absurd rfl hne

theorem safeCall_le {m1 m2 : M Str} (h : MLe m1 m2) : MLe (safeCall m1) (safeCall m2) := by
  intro s hne
  unfold safeCall at hne ⊢
  rcases e1 : m1 s with ⟨o, s'⟩
  rw [e1] at hne
  have hs := h s
  rw [e1] at hs
  cases o with
  | ok a => rw [hs (by simp)]
  | err e => rw [hs (by simp)]
  | panic p => rw [hs (by simp)]
  | oof => exact absurd rfl hne

theorem withFreshUsage_le {m1 m2 : M α} (h : MLe m1 m2) :
    MLe (withFreshUsage m1) (withFreshUsage m2) := by
  intro s hne
  unfold withFreshUsage at hne ⊢
  dsimp only at hne ⊢
  rw [h _ hne]

theorem ite_le {c : Prop} [Decidable c] {m1 m2 n1 n2 : M α} (h : MLe m1 n1) (h' : MLe m2 n2) :
    MLe (if c then m1 else m2) (if c then n1 else n2) := by
  split <;> assumption

theorem collectM_le {f g : α → M (Option Str)} (h : ∀ a, MLe (f a) (g a)) (l : List α) :
    MLe (collectM f l) (collectM g l) := by
  induction l with
  | nil => exact .refl _
  | cons a l ih => exact (h a).bind fun o => ih.bind fun r => .refl _

section
variable {r1 r2 : Rec} (h : RecLe r1 r2)
include h

theorem fragmentBuild_le (ctx : Ctx) (fr : Frame) (i : Int) :
    MLe (fragmentBuild r1 ctx fr i) (fragmentBuild r2 ctx fr i) := by
  unfold fragmentBuild
  split
  · exact .refl _
  · apply MLe.bind (.refl _)
    intro _
    split
    · exact h ctx _
    · exact .refl _

theorem build_branch_le (ctx : Ctx) (b : Builder) {k1 k2 : Except Err Str → M Str}
    (hk : ∀ r, MLe (k1 r) (k2 r)) :
    MLe (fun s => match r1 ctx (.build b) s with
      | (.ok t, s') => k1 (.ok t) s'
      | (.err e, s') => k1 (.error e) s'
      | (.panic p, s') => (.panic p, s')
      | (.oof, s') => (.oof, s'))
     (fun s => match r2 ctx (.build b) s with
      | (.ok t, s') => k2 (.ok t) s'
      | (.err e, s') => k2 (.error e) s'
      | (.panic p, s') => (.panic p, s')
      | (.oof, s') => (.oof, s')) := by
  intro s hne
  dsimp only at hne ⊢
  have hs := h ctx (.build b) s
  rcases e1 : r1 ctx (.build b) s with ⟨o, s'⟩
  rw [e1] at hs hne
  cases o with
  | ok a => rw [hs (by simp)]; exact hk _ _ hne
  | err e => rw [hs (by simp)]; exact hk _ _ hne
  | panic p => rw [hs (by simp)]
  | oof => exact absurd rfl hne

omit h in
theorem withOwnStore_le (style : Style) {m1 m2 : M Str} (hm : MLe m1 m2) : MLe (withOwnStore style m1) (withOwnStore style m2) := by
  intro s hne
  unfold withOwnStore at hne ⊢
  dsimp only at hne ⊢
  have hs := hm { s with store := .new style, usedA := [], usedF := [] }
  rcases e1 : m1 { s with store := .new style, usedA := [], usedF := [] } with ⟨o, s'⟩
  rw [e1] at hs hne
  cases o with
  | ok a => rw [hs (by simp)]
  | err e => rw [hs (by simp)]
  | panic p => rw [hs (by simp)]
  | oof => exact absurd rfl hne

theorem runProg_le (L : GoLib) (ctx : Ctx) : ∀ p, MLe (runProg L r1 ctx p) (runProg L r2 ctx p)
  | .ret _ => .refl _
  | .fail _ => .refl _
  | .panic _ _ => .refl _
  | .commit v k => by
    unfold runProg; exact MLe.bind (.refl _) fun t => runProg_le L ctx (k t)
  | .args k => by
    unfold runProg; exact MLe.bind (.refl _) fun s => runProg_le L ctx (k s.store.args)
  | .build b k => by
    unfold runProg; exact build_branch_le h ctx b fun r => runProg_le L ctx (k r)
  | .buildWith fm b k => by
    unfold runProg
    split
    · exact runProg_le L ctx (k _)
    · exact build_branch_le h _ b fun r => runProg_le L ctx (k r)
  | .query style b k => by
    unfold runProg
    split
    · exact .refl _
    · exact MLe.bind (withOwnStore_le style (h _ _)) fun r => runProg_le L ctx (k r)

theorem joinCompatible_le (f : FuncInfo) : MLe (joinCompatible r1 f) (joinCompatible r2 f) := by
  intro s hne
  unfold joinCompatible at hne ⊢
  split
  · rfl
  · rename_i hc
    rw [if_neg hc] at hne
    dsimp only at hne ⊢
    have hs := h newEmptyContext.withNilFragment (.call f [.int 0])
      { s with store := .new question, usedA := [], usedF := [] }
    rcases e1 : r1 newEmptyContext.withNilFragment (.call f [.int 0])
      { s with store := .new question, usedA := [], usedF := [] } with ⟨o, s'⟩
    rw [e1] at hs hne
    cases o with
    | ok a => rw [hs (by simp)]
    | err e => rw [hs (by simp)]
    | panic p => rw [hs (by simp)]
    | oof => exact absurd rfl hne

theorem joinCheck_le (ctx : Ctx) (es : List Expr) : MLe (joinCheck r1 ctx es) (joinCheck r2 ctx es) := by
  induction es with
  | nil => exact .refl _
  | cons e es ih =>
    cases e with
    | func name =>
      unfold joinCheck
      split
      · exact .refl _
      · apply MLe.bind (joinCompatible_le h _)
        intro ok
        apply ite_le _ (.refl _)
        exact ih.bind fun n => .refl _
    | plain _ => exact ih
    | bindVar _ _ => exact ih
    | call _ _ => exact ih

theorem joinLoop_le (ctx : Ctx) (es : List Expr) (sep : Str) (from_ to : Int) {n1 n2 : Nat}
    (hn : n1 ≤ n2) (i : Int) (acc : Str) :
    MLe (joinLoop r1 ctx es sep from_ to n1 i acc) (joinLoop r2 ctx es sep from_ to n2 i acc) := by
  induction n1 generalizing n2 i acc with
  | zero => intro s hne; exact absurd rfl hne
  | succ n1 ih =>
    obtain ⟨n2, rfl⟩ : ∃ k, n2 = k + 1 := ⟨n2 - 1, by omega⟩
    intro s hne
    unfold joinLoop at hne ⊢
    have hs := h ctx (.clause (joinInst es i)) s
    rcases e1 : r1 ctx (.clause (joinInst es i)) s with ⟨o, s'⟩
    rw [e1] at hs hne
    cases o with
    | ok a =>
      rw [hs (by simp)]
      dsimp only at hne ⊢
      split
      · rfl
      · rename_i hc
        rw [if_neg hc] at hne
        exact ih (by omega) _ _ _ hne
    | err e => rw [hs (by simp)]
    | panic p => rw [hs (by simp)]
    | oof => exact absurd rfl hne

variable {n1 n2 : Nat} (hn : n1 ≤ n2)
include hn

theorem funcJoin_le (L : GoLib) (ctx : Ctx) (tmpl sep : Str) (is : List Int) :
    MLe (funcJoin L r1 n1 ctx tmpl sep is) (funcJoin L r2 n2 ctx tmpl sep is) := by
  unfold funcJoin
  apply ite_le (.refl _)
  apply ite_le (.refl _)
  split
  · exact .refl _
  · apply MLe.bind (joinCheck_le h ctx _)
    intro n
    exact ite_le (.refl _) (joinLoop_le h ctx _ _ _ _ hn _ _)

theorem callBody_le (L : GoLib) (ctx : Ctx) (b : Body) (vs : List ArgVal) :
    MLe (callBody L r1 n1 ctx b vs) (callBody L r2 n2 ctx b vs) := by
  unfold callBody
  split
  · exact .refl _
  · exact MLe.bind (.refl _) fun fr => fragmentBuild_le h ctx fr _
  · exact funcJoin_le h hn L ctx _ _ _
  · exact runProg_le h L ctx _

theorem evalCall_le (L : GoLib) (ctx : Ctx) (f : FuncInfo) (args : List CallArg) :
    MLe (evalCall L r1 n1 ctx f args) (evalCall L r2 n2 ctx f args) := by
  unfold evalCall
  apply ite_le (.refl _)
  dsimp only
  split
  · exact .refl _
  · exact .refl _
  · exact .refl _
  · apply MLe.wrapErr
    apply safeCall_le
    exact ite_le ((callBody_le h hn L ctx _ _).bind fun _ => .refl _) (.refl _)

theorem evalExpr_le (L : GoLib) (ctx : Ctx) (e : Expr) :
    MLe (evalExpr L r1 n1 ctx e) (evalExpr L r2 n2 ctx e) := by
  cases e with
  | plain t => exact .refl _
  | bindVar t i => exact .refl _
  | func name => exact .refl _
  | call name args =>
    unfold evalExpr evalFunction
    dsimp only
    split
    · exact .refl _
    · exact evalCall_le h hn L ctx _ _

theorem buildClause_le (L : GoLib) (ctx : Ctx) (es : List Expr) :
    MLe (buildClause L r1 n1 ctx es) (buildClause L r2 n2 ctx es) := by
  induction es with
  | nil => exact .refl _
  | cons e es ih =>
    exact (evalExpr_le h hn L ctx e).bind fun _ => ih.bind fun _ => .refl _

theorem buildFragment_le (L : GoLib) (ctx : Ctx) (f : Fragment) :
    MLe (buildFragment L r1 n1 ctx f) (buildFragment L r2 n2 ctx f) := by
  unfold buildFragment
  apply withFreshUsage_le
  unfold buildBody
  split
  · exact .refl _
  · exact (MLe.wrapErr _ (buildClause_le h hn L _ _)).bind fun _ => .refl _

theorem buildCTEs_le (ctx : Ctx) (b : QB) (dep : Deps) :
    MLe (buildCTEs r1 ctx b dep) (buildCTEs r2 ctx b dep) := by
  unfold buildCTEs
  refine (collectM_le (fun c => ?_) _).bind fun _ => .refl _
  exact ite_le (.refl _) ((MLe.wrapErr _ (h ctx _)).bind fun _ => .refl _)

theorem buildFrom_le (L : GoLib) (ctx : Ctx) (b : QB) (dep : Deps) :
    MLe (buildFrom L r1 n1 ctx b dep) (buildFrom L r2 n2 ctx b dep) := by
  unfold buildFrom
  refine (collectM_le (fun c => ?_) _).bind fun _ => .refl _
  refine ite_le (.refl _) ((MLe.wrapErr _ ?_).bind fun _ => .refl _)
  split
  · exact buildFragment_le h hn L ctx _
  · exact .refl _

theorem buildUnion_le (ctx : Ctx) (us : List Builder) :
    MLe (buildUnion r1 ctx us) (buildUnion r2 ctx us) := by
  unfold buildUnion
  exact (collectM_le (fun u => (h ctx _).bind fun _ => .refl _) _).bind fun _ => .refl _

theorem buildOrders_le (L : GoLib) (ctx : Ctx) (r : Nat) :
    MLe (buildOrders L r1 n1 ctx r) (buildOrders L r2 n2 ctx r) := by
  unfold buildOrders
  exact MLe.bind (.refl _) fun b => MLe.bind (.refl _) fun _ => buildFragment_le h hn L ctx _

theorem buildSelects_le (L : GoLib) (ctx : Ctx) (r : Nat) :
    MLe (buildSelects L r1 n1 ctx r) (buildSelects L r2 n2 ctx r) := by
  unfold buildSelects
  exact MLe.bind (.refl _) fun _ => MLe.bind (.refl _) fun b =>
    (buildFragment_le h hn L ctx _).bind fun _ => MLe.bind (.refl _) fun b =>
    (buildFragment_le h hn L ctx _).bind fun _ => .refl _

theorem buildInternal_le (L : GoLib) (ctx : Ctx) (r : Nat) :
    MLe (buildInternal L r1 n1 ctx r) (buildInternal L r2 n2 ctx r) := by
  unfold buildInternal
  refine MLe.bind (.refl _) fun b => ite_le (.refl _) ?_
  refine MLe.bind (.refl _) fun dep => MLe.bind (buildCTEs_le h hn ctx _ _) fun _ => ?_
  refine MLe.bind (.refl _) fun b => MLe.bind (buildFrom_le h hn L ctx _ _) fun _ => ?_
  refine MLe.bind (.refl _) fun b => MLe.bind (buildFragment_le h hn L ctx _) fun _ => ?_
  refine MLe.bind (.refl _) fun b => MLe.bind (buildFragment_le h hn L ctx _) fun _ => ?_
  refine MLe.bind (buildOrders_le h hn L ctx r) fun _ => ?_
  refine MLe.bind (.refl _) fun b => MLe.bind (buildSelects_le h hn L ctx r) fun _ => ?_
  refine MLe.bind (.refl _) fun b => MLe.bind (ite_le ?_ (.refl _)) fun _ => .refl _
  exact MLe.bind (buildUnion_le h hn ctx _) fun _ => .refl _

theorem step_le (L : GoLib) : RecLe (step L r1 n1) (step L r2 n2) := by
  intro ctx t
  unfold step
  cases t with
  | build b =>
    cases b <;> first
      | exact .refl _
      | exact buildFragment_le h hn L ctx _
      | exact buildInternal_le h hn L ctx _
      | exact runProg_le h L ctx _
  | clause es => exact buildClause_le h hn L ctx es
  | call f args => exact evalCall_le h hn L ctx f args
end

/-- More fuel does not change a result. -/
theorem run_le (L : GoLib) {n m : Nat} (h : n ≤ m) : RecLe (run L n) (run L m) := by
  induction n generalizing m with
  | zero => intro ctx t s hne; exact absurd rfl hne
  | succ n ih =>
    obtain ⟨m, rfl⟩ : ∃ k, m = k + 1 := ⟨m - 1, by omega⟩
    exact step_le (ih (m := m) (by omega)) (by omega) L

end Sqlf
