import Verif.Proofs.History
import Verif.Model.Eval
/-!
# Effects on the state

A relation on states that all elementary effects respect is respected by the evaluator.
-/

namespace Sqlf

open Spec

/-- The query builder behind `r` replaced. -/
def setQB (s : St) (r : Nat) (b : QB) : St := { s with heap := s.heap.set r b }

/-- A relation between the state before and after that holds for the elementary effects of
user code and of query builders. -/
structure BaseRel (R : St → St → Prop) : Prop where
  refl : ∀ s, R s s
  trans : ∀ {s s' s''}, R s s' → R s' s'' → R s s''
  commit : ∀ s v p st, s.store.commit v = some (p, st) → R s { s with store := st }
  orders : ∀ s r b, s.heap[r]? = some b → R s (setQB s r
    { b with
      touches := b.touches.appendFragments (orderItems b.distinct 0 b.orders).2.1
      errors := b.errors ++ (orderItems b.distinct 0 b.orders).2.2 })
  selects : ∀ s r b p, s.heap[r]? = some b → R s (setQB s r
    { b with selects := b.selects.withPrefix p })
  /-- a build with a context of its own: the trial call of the `#join` test, `BuildQuery` in user code -/
  own : ∀ style s s', R { s with store := .new style, usedA := [], usedF := [] } s' →
    R s { s' with store := s.store, usedA := s.usedA, usedF := s.usedF }
  log : ∀ (s : St) (r : Nat) (b : QB) l, s.heap[r]? = some b → b.debug = true → R s { s with log := s.log ++ l }

/-- The same for all elementary effects. -/
structure EffRel (R : St → St → Prop) : Prop extends BaseRel R where
  markA : ∀ s k, R s { s with usedA := k :: s.usedA }
  markF : ∀ s k, R s { s with usedF := k :: s.usedF }
  /-- a fragment context with its own flags -/
  fresh : ∀ s s', R { s with usedA := [], usedF := [] } s' →
    R s { s' with usedA := s.usedA, usedF := s.usedF }

structure MEff (R : St → St → Prop) (m : M α) : Prop where
  out : ∀ s, R s (m s).2

def RecEff (R : St → St → Prop) (rec : Rec) : Prop := ∀ ctx t, MEff R (rec ctx t)

section
variable {R : St → St → Prop}

theorem MEff.wrapErr {m : M α} (w : Str) (h : MEff R m) : MEff R (.wrapErr w m) := by
  refine ⟨fun s => ?_⟩
  have h1 := h.out s
  unfold M.wrapErr
  rcases hm : m s with ⟨o, s'⟩
  rw [hm] at h1
  cases o <;> exact h1

theorem safeCall_eff {m : M Str} (h : MEff R m) : MEff R (safeCall m) := by
  refine ⟨fun s => ?_⟩
  have h1 := h.out s
  unfold safeCall
  rcases hm : m s with ⟨o, s'⟩
  rw [hm] at h1
  cases o <;> exact h1

theorem ite_eff {c : Prop} [Decidable c] {m n : M α} (h : MEff R m) (h' : MEff R n) :
    MEff R (if c then m else n) := by
  split <;> assumption

section base
variable (hR : BaseRel R)
include hR

theorem eff_const (o : Out α) : MEff R (fun s => (o, s)) := ⟨fun s => hR.refl s⟩

theorem MEff.bind {m : M α} {k : α → M β} (h : MEff R m) (hk : ∀ a, MEff R (k a)) :
    MEff R (M.bind m k) := by
  refine ⟨fun s => ?_⟩
  have h1 := h.out s
  unfold M.bind
  rcases hm : m s with ⟨o, s'⟩
  rw [hm] at h1
  cases o with
  | ok a => exact hR.trans h1 ((hk a).out s')
  | err e => exact h1
  | panic p => exact h1
  | oof => exact h1

theorem collectM_eff {f : α → M (Option Str)} (h : ∀ a, MEff R (f a)) (l : List α) :
    MEff R (collectM f l) := by
  induction l with
  | nil => exact eff_const hR _
  | cons a l ih => exact (h a).bind hR fun o => ih.bind hR fun r => eff_const hR _

theorem commitArg_eff (v : Val) : MEff R (commitArg v) := by
  refine ⟨fun s => ?_⟩
  unfold commitArg
  cases h : s.store.commit v with
  | none => exact hR.refl s
  | some r => exact hR.commit s v r.1 r.2 h

theorem mustFragment_eff (ctx : Ctx) : MEff R (mustFragment ctx) := by
  unfold mustFragment
  split <;> exact eff_const hR _

theorem getQB_eff (r : Nat) : MEff R (getQB r) := by
  refine ⟨fun s => ?_⟩
  unfold getQB
  split <;> exact hR.refl s

theorem orders_eff (r : Nat) {k : QB → M Str} (hk : ∀ b, MEff R (k b)) :
    MEff R (M.bind (getQB r) fun b => M.bind (modifyQB r fun b' =>
      { b' with
        touches := b'.touches.appendFragments (orderItems b.distinct 0 b.orders).2.1
        errors := b'.errors ++ (orderItems b.distinct 0 b.orders).2.2 }) fun _ => k b) := by
  refine ⟨fun s => ?_⟩
  cases h : s.heap[r]? with
  | none =>
    have : ∃ o, (M.bind (getQB r) fun b => M.bind (modifyQB r fun b' =>
      { b' with
        touches := b'.touches.appendFragments (orderItems b.distinct 0 b.orders).2.1
        errors := b'.errors ++ (orderItems b.distinct 0 b.orders).2.2 }) fun _ => k b) s = (o, s) := by
      unfold M.bind getQB
      rw [h]
      exact ⟨_, rfl⟩
    obtain ⟨o, h1⟩ := this
    rw [h1]
    exact hR.refl s
  | some b =>
    have h1 : (M.bind (getQB r) fun b => M.bind (modifyQB r fun b' =>
      { b' with
        touches := b'.touches.appendFragments (orderItems b.distinct 0 b.orders).2.1
        errors := b'.errors ++ (orderItems b.distinct 0 b.orders).2.2 }) fun _ => k b) s =
      k b (setQB s r { b with
        touches := b.touches.appendFragments (orderItems b.distinct 0 b.orders).2.1
        errors := b.errors ++ (orderItems b.distinct 0 b.orders).2.2 }) := by
      unfold M.bind getQB modifyQB
      rw [h]
      dsimp only
      rw [h]
      rfl
    rw [h1]
    exact hR.trans (hR.orders s r b h) ((hk b).out _)

theorem debugLog_eff (L : GoLib) (q : Str) {s : St} {r : Nat} {b : QB} (h : s.heap[r]? = some b) (hd : b.debug = true) :
    R s (debugLog L q s).2 := by
  unfold debugLog
  split
  · exact hR.log s r b _ h hd
  · exact hR.log s r b _ h hd
  · exact hR.refl s
  · exact hR.refl s

theorem debug_eff (L : GoLib) (q : Str) (r : Nat) :
    MEff R (M.bind (getQB r) fun b => M.bind (if b.debug then debugLog L q else .pure ()) fun _ => .pure q) := by
  refine ⟨fun s => ?_⟩
  unfold M.bind getQB
  cases h : s.heap[r]? with
  | none => exact hR.refl s
  | some b =>
    dsimp only
    by_cases hd : b.debug = true
    · rw [if_pos hd]
      have := debugLog_eff hR L q h hd
      rcases hm : debugLog L q s with ⟨o, s'⟩
      rw [hm] at this
      cases o <;> exact this
    · rw [if_neg hd]; exact hR.refl s

variable {rec : Rec} (hb : ∀ ctx b, MEff R (rec ctx (.build b)))
include hb

theorem build_branch_eff (ctx : Ctx) (b : Builder) {k : Except Err Str → M Str}
    (hk : ∀ r, MEff R (k r)) :
    MEff R (fun s => match rec ctx (.build b) s with
      | (.ok t, s') => k (.ok t) s'
      | (.err e, s') => k (.error e) s'
      | (.panic p, s') => (.panic p, s')
      | (.oof, s') => (.oof, s')) := by
  refine ⟨fun s => ?_⟩
  have h1 := (hb ctx b).out s
  rcases hm : rec ctx (.build b) s with ⟨o, s'⟩
  rw [hm] at h1
  cases o with
  | ok a => exact hR.trans h1 ((hk _).out s')
  | err e => exact hR.trans h1 ((hk _).out s')
  | panic p => exact h1
  | oof => exact h1

omit hb in
theorem withOwnStore_eff (style : Style) {m : M Str} (h : MEff R m) : MEff R (withOwnStore style m) := by
  refine ⟨fun s => ?_⟩
  have h1 := hR.own style s _ (h.out { s with store := .new style, usedA := [], usedF := [] })
  unfold withOwnStore
  dsimp only
  split <;> exact h1

theorem runProg_eff (L : GoLib) (ctx : Ctx) : ∀ p, MEff R (runProg L rec ctx p)
  | .ret _ => eff_const hR _
  | .fail _ => eff_const hR _
  | .panic _ _ => eff_const hR _
  | .commit v k => by
    unfold runProg; exact (commitArg_eff hR v).bind hR fun t => runProg_eff L ctx (k t)
  | .args k => by
    unfold runProg
    exact MEff.bind hR ⟨fun s => hR.refl s⟩ fun s => runProg_eff L ctx (k s.store.args)
  | .build b k => by
    unfold runProg; exact build_branch_eff hR hb ctx b fun r => runProg_eff L ctx (k r)
  | .buildWith fm b k => by
    unfold runProg
    split
    · exact runProg_eff L ctx (k _)
    · exact build_branch_eff hR hb _ b fun r => runProg_eff L ctx (k r)
  | .query style b k => by
    unfold runProg
    split
    · exact eff_const hR _
    · exact (withOwnStore_eff hR style (hb _ b)).bind hR fun r => runProg_eff L ctx (k r)

theorem buildCTEs_eff (ctx : Ctx) (b : QB) (dep : Deps) : MEff R (buildCTEs rec ctx b dep) := by
  unfold buildCTEs
  refine MEff.bind hR (collectM_eff hR (fun c => ?_) _) fun _ => eff_const hR _
  split
  · exact eff_const hR _
  · exact MEff.bind hR (MEff.wrapErr _ (hb _ _)) fun q => eff_const hR _

theorem buildUnion_eff (ctx : Ctx) (us : List Builder) : MEff R (buildUnion rec ctx us) := by
  unfold buildUnion
  refine MEff.bind hR (collectM_eff hR (fun c => ?_) _) fun _ => eff_const hR _
  exact MEff.bind hR (hb _ _) fun q => eff_const hR _

variable {L : GoLib} {fuel : Nat} (hf : ∀ ctx f, MEff R (buildFragment L rec fuel ctx f))
include hf

omit hb in
theorem buildFrom_eff (ctx : Ctx) (b : QB) (dep : Deps) :
    MEff R (buildFrom L rec fuel ctx b dep) := by
  unfold buildFrom
  refine MEff.bind hR (collectM_eff hR (fun c => ?_) _) fun _ => eff_const hR _
  split
  · exact eff_const hR _
  · refine MEff.bind hR (MEff.wrapErr _ ?_) fun q => eff_const hR _
    split
    · exact hf _ _
    · exact eff_const hR _

omit hb in
theorem buildOrders_eff (ctx : Ctx) (r : Nat) :
    MEff R (buildOrders L rec fuel ctx r) := by
  exact orders_eff hR r fun _ => hf _ _

omit hb in
theorem buildSelects_eff (ctx : Ctx) (r : Nat) :
    MEff R (buildSelects L rec fuel ctx r) := by
  unfold buildSelects
  refine MEff.bind hR (m := modifyQB r _) ?_ fun _ => (getQB_eff hR r).bind hR fun b =>
    (hf _ _).bind hR fun sel => (getQB_eff hR r).bind hR fun b =>
    (hf _ _).bind hR fun t => ite_eff (eff_const hR _) (eff_const hR _)
  refine ⟨fun s => ?_⟩
  unfold modifyQB
  cases h : s.heap[r]? with
  | none => exact hR.refl s
  | some b => exact hR.selects s r b _ h

theorem buildInternal_eff (ctx : Ctx) (r : Nat) :
    MEff R (buildInternal L rec fuel ctx r) := by
  unfold buildInternal
  refine (getQB_eff hR r).bind hR fun b => ite_eff (eff_const hR _) ?_
  refine MEff.bind hR ⟨fun s => hR.refl s⟩ fun dep => ?_
  refine (buildCTEs_eff hR hb ..).bind hR fun _ => (getQB_eff hR r).bind hR fun b => ?_
  refine (buildFrom_eff hR hf ..).bind hR fun _ => (getQB_eff hR r).bind hR fun b => ?_
  refine (hf _ _).bind hR fun _ => (getQB_eff hR r).bind hR fun b => ?_
  refine (hf _ _).bind hR fun _ => ?_
  refine (buildOrders_eff hR hf ..).bind hR fun _ => (getQB_eff hR r).bind hR fun b => ?_
  refine (buildSelects_eff hR hf ..).bind hR fun _ => (getQB_eff hR r).bind hR fun b => ?_
  refine MEff.bind hR (ite_eff ?_ (eff_const hR _)) fun _ => debug_eff hR L _ r
  exact (buildUnion_eff hR hb ..).bind hR fun _ => eff_const hR _

theorem buildBuilder_eff (ctx : Ctx) (b : Builder) :
    MEff R (buildBuilder L rec fuel ctx b) := by
  unfold buildBuilder
  split <;> first
    | exact eff_const hR _
    | exact hf _ _
    | exact buildInternal_eff hR hb hf ..
    | exact runProg_eff hR hb ..

end base

variable (hR : EffRel R)
include hR

theorem withFreshUsage_eff {m : M α} (h : MEff R m) : MEff R (withFreshUsage m) :=
  ⟨fun s => hR.fresh s _ (h.out _)⟩

theorem argBuild_eff (fr : Frame) (i : Int) : MEff R (argBuild fr i) := by
  unfold argBuild
  split
  · exact eff_const hR.toBaseRel _
  · refine MEff.bind hR.toBaseRel ⟨fun s => hR.markA s _⟩ fun _ => ?_
    split
    · exact commitArg_eff hR.toBaseRel _
    · exact eff_const hR.toBaseRel _

variable {rec : Rec} (hrec : RecEff R rec)
include hrec

theorem fragmentBuild_eff (ctx : Ctx) (fr : Frame) (i : Int) :
    MEff R (fragmentBuild rec ctx fr i) := by
  unfold fragmentBuild
  split
  · exact eff_const hR.toBaseRel _
  · refine MEff.bind hR.toBaseRel ⟨fun s => hR.markF s _⟩ fun _ => ?_
    split
    · exact hrec ctx _
    · exact eff_const hR.toBaseRel _

theorem joinCompatible_eff (f : FuncInfo) : MEff R (joinCompatible rec f) := by
  refine ⟨fun s => ?_⟩
  unfold joinCompatible
  split
  · exact hR.refl s
  · have h := hR.own _ s _ ((hrec newEmptyContext.withNilFragment (.call f [.int 0])).out
      { s with store := .new question, usedA := [], usedF := [] })
    dsimp only
    split <;> exact h

theorem joinCheck_eff (ctx : Ctx) (es : List Expr) : MEff R (joinCheck rec ctx es) := by
  induction es with
  | nil => exact eff_const hR.toBaseRel _
  | cons e es ih =>
    cases e with
    | func name =>
      unfold joinCheck
      split
      · exact eff_const hR.toBaseRel _
      · refine MEff.bind hR.toBaseRel (joinCompatible_eff hR hrec _) fun ok => ?_
        split
        · exact ih.bind hR.toBaseRel fun n => eff_const hR.toBaseRel _
        · exact eff_const hR.toBaseRel _
    | _ => unfold joinCheck; exact ih

theorem joinLoop_eff (ctx : Ctx) (es : List Expr) (sep : Str) (from_ to : Int) (n : Nat) (i : Int)
    (acc : Str) : MEff R (joinLoop rec ctx es sep from_ to n i acc) := by
  induction n generalizing i acc with
  | zero => exact eff_const hR.toBaseRel _
  | succ n ih =>
    refine ⟨fun s => ?_⟩
    have h1 := (hrec ctx (.clause (joinInst es i))).out s
    unfold joinLoop
    rcases hm : rec ctx (.clause (joinInst es i)) s with ⟨o, s'⟩
    rw [hm] at h1
    cases o with
    | ok a =>
      dsimp only
      split
      · exact h1
      · exact hR.trans h1 ((ih _ _).out s')
    | err e =>
      dsimp only
      split
      · split <;> exact h1
      · exact h1
    | panic p => exact h1
    | oof => exact h1

theorem funcJoin_eff (L : GoLib) (fuel : Nat) (ctx : Ctx) (tmpl sep : Str) (is : List Int) :
    MEff R (funcJoin L rec fuel ctx tmpl sep is) := by
  unfold funcJoin
  split
  · exact eff_const hR.toBaseRel _
  · dsimp only
    split
    · exact eff_const hR.toBaseRel _
    · split
      · exact eff_const hR.toBaseRel _
      · refine MEff.bind hR.toBaseRel (joinCheck_eff hR hrec ctx _) fun n => ?_
        split
        · exact eff_const hR.toBaseRel _
        · exact joinLoop_eff hR hrec ..

theorem callBody_eff (L : GoLib) (fuel : Nat) (ctx : Ctx) (body : Body) (vs : List ArgVal) :
    MEff R (callBody L rec fuel ctx body vs) := by
  unfold callBody
  split
  · exact (mustFragment_eff hR.toBaseRel ctx).bind hR.toBaseRel fun fr => argBuild_eff hR fr _
  · exact (mustFragment_eff hR.toBaseRel ctx).bind hR.toBaseRel fun fr => fragmentBuild_eff hR hrec ctx fr _
  · exact funcJoin_eff hR hrec ..
  · exact runProg_eff hR.toBaseRel (fun ctx b => hrec ctx _) L ctx _

theorem evalCall_eff (L : GoLib) (fuel : Nat) (ctx : Ctx) (f : FuncInfo) (args : List CallArg) :
    MEff R (evalCall L rec fuel ctx f args) := by
  unfold evalCall
  split
  · exact eff_const hR.toBaseRel _
  · dsimp only
    split
    · exact eff_const hR.toBaseRel _
    · exact eff_const hR.toBaseRel _
    · exact eff_const hR.toBaseRel _
    · refine MEff.wrapErr _ (safeCall_eff ?_)
      split
      · exact (callBody_eff hR hrec L fuel ctx _ _).bind hR.toBaseRel fun s => eff_const hR.toBaseRel _
      · exact eff_const hR.toBaseRel _

theorem evalExpr_eff (L : GoLib) (fuel : Nat) (ctx : Ctx) (e : Expr) :
    MEff R (evalExpr L rec fuel ctx e) := by
  unfold evalExpr
  split
  · exact eff_const hR.toBaseRel _
  · refine (mustFragment_eff hR.toBaseRel ctx).bind hR.toBaseRel fun fr => ?_
    split
    · exact eff_const hR.toBaseRel _
    · exact argBuild_eff hR fr _
  · unfold evalFunction
    split
    · exact eff_const hR.toBaseRel _
    · exact evalCall_eff hR hrec ..
  · exact eff_const hR.toBaseRel _

theorem buildClause_eff (L : GoLib) (fuel : Nat) (ctx : Ctx) (es : List Expr) :
    MEff R (buildClause L rec fuel ctx es) := by
  induction es with
  | nil => exact eff_const hR.toBaseRel _
  | cons e es ih =>
    exact (evalExpr_eff hR hrec L fuel ctx e).bind hR.toBaseRel fun s => ih.bind hR.toBaseRel fun t => eff_const hR.toBaseRel _

theorem buildBody_eff (L : GoLib) (fuel : Nat) (ctx : Ctx) (f : Fragment) :
    MEff R (buildBody L rec fuel ctx f) := by
  unfold buildBody
  split
  · exact eff_const hR.toBaseRel _
  · refine MEff.bind hR.toBaseRel (MEff.wrapErr _ (buildClause_eff hR hrec ..)) fun body => ⟨fun s => ?_⟩
    split <;> exact hR.refl s

theorem buildFragment_eff (L : GoLib) (fuel : Nat) (ctx : Ctx) (f : Fragment) :
    MEff R (buildFragment L rec fuel ctx f) :=
  withFreshUsage_eff hR (buildBody_eff hR hrec ..)

theorem step_eff (L : GoLib) (fuel : Nat) : RecEff R (step L rec fuel) := by
  intro ctx t
  unfold step
  split
  · exact buildBuilder_eff hR.toBaseRel (fun ctx b => hrec ctx _) (fun ctx f => buildFragment_eff hR hrec L fuel ctx f) ..
  · exact buildClause_eff hR hrec ..
  · exact evalCall_eff hR hrec ..

end

theorem run_eff {R : St → St → Prop} (hR : EffRel R) (L : GoLib) (n : Nat) : RecEff R (run L n) := by
  induction n with
  | zero => exact fun ctx t => eff_const hR.toBaseRel _
  | succ n ih => exact step_eff hR ih L n

/-! ## The argument store -/

/-- The store after is the store before with more values committed. -/
def Commits (s s' : Store) : Prop := ∃ vs ps, commitAll s vs = some (ps, s')

theorem Commits.refl (s : Store) : Commits s s := ⟨[], [], rfl⟩

theorem Commits.trans {s s' s'' : Store} (h : Commits s s') (h' : Commits s' s'') :
    Commits s s'' := by
  obtain ⟨vs, ps, h⟩ := h
  obtain ⟨vs', ps', h'⟩ := h'
  exact ⟨vs ++ vs', ps ++ ps', by rw [commitAll_append, h]; simp [h']⟩

theorem Commits.one {s s' : Store} {v : Val} {p : Str} (h : s.commit v = some (p, s')) :
    Commits s s' := ⟨[v], [p], by simp [commitAll, h]⟩

theorem commits_effRel : EffRel fun s s' => Commits s.store s'.store where
  refl s := .refl _
  trans h h' := h.trans h'
  commit s v p st h := .one h
  markA s k := .refl _
  markF s k := .refl _
  fresh s s' h := h
  own _ s s' h := .refl _
  orders s r b h := .refl _
  selects s r b p h := .refl _
  log _ _ _ _ _ _ := .refl _

/-- Whatever the evaluator does to the argument store is a sequence of commits. -/
theorem run_commits (L : GoLib) (n : Nat) (ctx : Ctx) (t : Task) (s : St) :
    Commits s.store (run L n ctx t s).2.store :=
  (run_eff commits_effRel L n ctx t).out s

/-! ## `used` flags -/

theorem used_baseRel : BaseRel fun s s' => s'.usedA = s.usedA ∧ s'.usedF = s.usedF where
  refl _ := ⟨rfl, rfl⟩
  trans h h' := ⟨h'.1.trans h.1, h'.2.trans h.2⟩
  own _ _ _ _ := ⟨rfl, rfl⟩
  commit _ _ _ _ _ := ⟨rfl, rfl⟩
  orders _ _ _ _ := ⟨rfl, rfl⟩
  selects _ _ _ _ _ := ⟨rfl, rfl⟩
  log _ _ _ _ _ _ := ⟨rfl, rfl⟩

/-- Building a builder leaves the flags of the current fragment as they are. -/
theorem build_used (L : GoLib) (n : Nat) (ctx : Ctx) (b : Builder) :
    MEff (fun s s' => s'.usedA = s.usedA ∧ s'.usedF = s.usedF) (run L n ctx (.build b)) := by
  induction n generalizing ctx b with
  | zero => exact eff_const used_baseRel _
  | succ n ih =>
    exact buildBuilder_eff used_baseRel ih (fun ctx f => ⟨fun s => ⟨rfl, rfl⟩⟩) ctx b

end Sqlf
