import Verif.Proofs.Effects
/-!
# Building a builder does not depend on the current fragment context
-/

namespace Sqlf

open Spec

/-- The state with other `used` flags. -/
def setUsed (s : St) (a f : List Nat) : St := { s with usedA := a, usedF := f }

/-- `m'` does with other flags what `m` does, and leaves them. -/
structure Free (m m' : M α) : Prop where
  out : ∀ s a f, m' (setUsed s a f) = ((m s).1, setUsed (m s).2 a f)

theorem free_const (o : Out α) : Free (fun s => (o, s)) (fun s => (o, s)) := ⟨fun _ _ _ => rfl⟩

theorem Free.bind {m m' : M α} {k k' : α → M β} (h : Free m m') (hk : ∀ a, Free (k a) (k' a)) :
    Free (M.bind m k) (M.bind m' k') := by
  refine ⟨fun s a f => ?_⟩
  have h1 := h.out s a f
  unfold M.bind
  rw [h1]
  rcases hm : m s with ⟨o, s'⟩
  cases o with
  | ok x => exact (hk x).out s' a f
  | err e => rfl
  | panic p => rfl
  | oof => rfl

theorem Free.wrapErr {m m' : M α} (w : Str) (h : Free m m') : Free (.wrapErr w m) (.wrapErr w m') := by
  refine ⟨fun s a f => ?_⟩
  have h1 := h.out s a f
  unfold M.wrapErr
  rw [h1]
  rcases hm : m s with ⟨o, s'⟩
  cases o <;> rfl

theorem Free.ite {c : Prop} [Decidable c] {m m' n n' : M α} (h : Free m m') (h' : Free n n') :
    Free (if c then m else n) (if c then m' else n') := by
  split <;> assumption

theorem collectM_free {g g' : α → M (Option Str)} (h : ∀ a, Free (g a) (g' a)) (l : List α) :
    Free (collectM g l) (collectM g' l) := by
  induction l with
  | nil => exact free_const _
  | cons a l ih => exact (h a).bind fun o => ih.bind fun r => free_const _

theorem commitArg_free (v : Val) : Free (commitArg v) (commitArg v) := by
  refine ⟨fun s a f => ?_⟩
  unfold commitArg setUsed
  dsimp only
  cases s.store.commit v <;> rfl

theorem getQB_free (r : Nat) : Free (getQB r) (getQB r) := by
  refine ⟨fun s a f => ?_⟩
  unfold getQB setUsed
  dsimp only
  cases s.heap[r]? <;> rfl

theorem modifyQB_free (r : Nat) (g : QB → QB) : Free (modifyQB r g) (modifyQB r g) := by
  refine ⟨fun s a f => ?_⟩
  unfold modifyQB setUsed
  dsimp only
  cases s.heap[r]? <;> rfl

theorem debugLog_free (L : GoLib) (q : Str) : Free (debugLog L q) (debugLog L q) := by
  refine ⟨fun s a f => ?_⟩
  unfold debugLog setUsed
  dsimp only
  cases interpolate L rfc3339 q s.store.args <;> rfl

section
variable {L : GoLib} {rec : Rec} {fuel : Nat}
  (hb : ∀ ctx ctx' : Ctx, ctx.funcs = ctx'.funcs → ∀ b,
    Free (rec ctx (.build b)) (rec ctx' (.build b)))
variable {ctx ctx' : Ctx} (hc : ctx.funcs = ctx'.funcs)
include hc

theorem buildFragment_free (f : Fragment) :
    Free (buildFragment L rec fuel ctx f) (buildFragment L rec fuel ctx' f) := by
  have h : ctx.withFragment f = ctx'.withFragment f := by unfold Ctx.withFragment; rw [hc]
  refine ⟨fun s a f => ?_⟩
  unfold buildFragment
  rw [h]; rfl

theorem buildFrom_free (b : QB) (dep : Deps) :
    Free (buildFrom L rec fuel ctx b dep) (buildFrom L rec fuel ctx' b dep) := by
  unfold buildFrom
  refine (collectM_free (fun c => ?_) _).bind fun _ => free_const _
  split
  · exact free_const _
  · refine Free.bind (Free.wrapErr _ ?_) fun q => free_const _
    split
    · exact buildFragment_free hc _
    · exact free_const _

theorem buildOrders_free (r : Nat) :
    Free (buildOrders L rec fuel ctx r) (buildOrders L rec fuel ctx' r) := by
  unfold buildOrders
  exact (getQB_free r).bind fun b => (modifyQB_free r _).bind fun _ => buildFragment_free hc _

theorem buildSelects_free (r : Nat) :
    Free (buildSelects L rec fuel ctx r) (buildSelects L rec fuel ctx' r) := by
  unfold buildSelects
  exact (modifyQB_free r _).bind fun _ => (getQB_free r).bind fun b =>
    (buildFragment_free hc _).bind fun sel => (getQB_free r).bind fun b =>
    (buildFragment_free hc _).bind fun t => (free_const _).ite (free_const _)

include hb

omit hc in
theorem build_branch_free {c c' : Ctx} (h : c.funcs = c'.funcs) (b : Builder)
    {k k' : Except Err Str → M Str} (hk : ∀ r, Free (k r) (k' r)) :
    Free (fun s => match rec c (.build b) s with
      | (.ok t, s') => k (.ok t) s'
      | (.err e, s') => k (.error e) s'
      | (.panic p, s') => (.panic p, s')
      | (.oof, s') => (.oof, s'))
     (fun s => match rec c' (.build b) s with
      | (.ok t, s') => k' (.ok t) s'
      | (.err e, s') => k' (.error e) s'
      | (.panic p, s') => (.panic p, s')
      | (.oof, s') => (.oof, s')) := by
  refine ⟨fun s a f => ?_⟩
  have h1 := (hb c c' h b).out s a f
  rw [h1]
  rcases hm : rec c (.build b) s with ⟨o, s'⟩
  cases o with
  | ok x => exact (hk _).out s' a f
  | err e => exact (hk _).out s' a f
  | panic p => rfl
  | oof => rfl

theorem runProg_free : ∀ p, Free (runProg L rec ctx p) (runProg L rec ctx' p)
  | .ret _ => free_const _
  | .fail _ => free_const _
  | .panic _ _ => free_const _
  | .commit v k => by
    unfold runProg; exact (commitArg_free v).bind fun t => runProg_free (k t)
  | .args k => by
    unfold runProg
    refine ⟨fun s a f => ?_⟩
    exact (runProg_free (k s.store.args)).out s a f
  | .build b k => by
    unfold runProg; exact build_branch_free hb hc b fun r => runProg_free (k r)
  | .buildWith fm b k => by
    unfold runProg contextWithFuncs
    cases addValueFuncs L [] fm with
    | error e => exact runProg_free (k _)
    | ok m => exact build_branch_free hb (by simp [hc]) b fun r => runProg_free (k r)
  | .query style b k => by
    unfold runProg
    cases newContext L with
    | none => exact free_const _
    | some own =>
      refine Free.bind ⟨fun s a f => ?_⟩ fun r => runProg_free (k r)
      unfold withOwnStore
      have e : { setUsed s a f with store := .new style, usedA := [], usedF := [] } =
        { s with store := .new style, usedA := [], usedF := [] } := rfl
      rw [e]
      rcases rec own (.build b) { s with store := .new style, usedA := [], usedF := [] } with ⟨o, t⟩
      cases o <;> rfl

theorem buildCTEs_free (b : QB) (dep : Deps) :
    Free (buildCTEs rec ctx b dep) (buildCTEs rec ctx' b dep) := by
  unfold buildCTEs
  refine (collectM_free (fun c => ?_) _).bind fun _ => free_const _
  split
  · exact free_const _
  · exact ((hb _ _ hc _).wrapErr _).bind fun q => free_const _

theorem buildUnion_free (us : List Builder) : Free (buildUnion rec ctx us) (buildUnion rec ctx' us) := by
  unfold buildUnion
  exact (collectM_free (fun c => (hb _ _ hc _).bind fun q => free_const _) _).bind
    fun _ => free_const _

theorem buildInternal_free (r : Nat) :
    Free (buildInternal L rec fuel ctx r) (buildInternal L rec fuel ctx' r) := by
  unfold buildInternal
  refine (getQB_free r).bind fun b => (free_const _).ite ?_
  refine Free.bind ⟨fun _ _ _ => rfl⟩ fun dep => ?_
  refine (buildCTEs_free hb hc ..).bind fun _ => (getQB_free r).bind fun b => ?_
  refine (buildFrom_free hc ..).bind fun _ => (getQB_free r).bind fun b => ?_
  refine (buildFragment_free hc _).bind fun _ => (getQB_free r).bind fun b => ?_
  refine (buildFragment_free hc _).bind fun _ => ?_
  refine (buildOrders_free hc ..).bind fun _ => (getQB_free r).bind fun b => ?_
  refine (buildSelects_free hc ..).bind fun _ => (getQB_free r).bind fun b => ?_
  refine Free.bind (Free.ite ?_ (free_const _)) fun _ => (getQB_free r).bind fun b => ?_
  · exact (buildUnion_free hb hc ..).bind fun _ => free_const _
  · exact ((debugLog_free L _).ite (free_const _)).bind fun _ => free_const _

theorem buildBuilder_free (b : Builder) :
    Free (buildBuilder L rec fuel ctx b) (buildBuilder L rec fuel ctx' b) := by
  unfold buildBuilder
  split <;> first
    | exact free_const _
    | exact buildFragment_free hc _
    | exact buildInternal_free hb hc _
    | exact runProg_free hb hc _

end

theorem run_build_free (L : GoLib) (n : Nat) : ∀ ctx ctx' : Ctx, ctx.funcs = ctx'.funcs → ∀ b,
    Free (run L n ctx (.build b)) (run L n ctx' (.build b)) := by
  induction n with
  | zero => exact fun _ _ _ _ => free_const _
  | succ n ih => exact fun ctx ctx' hc b => buildBuilder_free ih hc b

end Sqlf
