import Verif.Proofs.Effects
/-!
# Two runs side by side

Runs that start in states with the same arguments and similar query builders give the same
results, if similar query builders do.
-/

namespace Sqlf

open Spec

/-- Same arguments, same flags, similar query builders.  The log is not compared. -/
structure StSim (H : List QB → List QB → Prop) (s s' : St) : Prop where
  store : s'.store = s.store
  usedA : s'.usedA = s.usedA
  usedF : s'.usedF = s.usedF
  heap : H s.heap s'.heap

structure MSim (H : List QB → List QB → Prop) (m m' : M α) : Prop where
  out : ∀ s s', StSim H s s' → (m' s').1 = (m s).1 ∧ StSim H (m s).2 (m' s').2

def RecSim (H : List QB → List QB → Prop) (rec rec' : Rec) : Prop := ∀ ctx t, MSim H (rec ctx t) (rec' ctx t)

section
variable {H : List QB → List QB → Prop}

theorem sim_const (o : Out α) : MSim H (fun s => (o, s)) (fun s => (o, s)) := ⟨fun _ _ h => ⟨rfl, h⟩⟩

theorem MSim.bind {m m' : M α} {k k' : α → M β} (h : MSim H m m') (hk : ∀ a, MSim H (k a) (k' a)) :
    MSim H (M.bind m k) (M.bind m' k') := by
  refine ⟨fun s s' hs => ?_⟩
  have h1 := h.out s s' hs
  unfold M.bind
  rcases hm : m s with ⟨o, t⟩
  rcases hm' : m' s' with ⟨o', t'⟩
  rw [hm, hm'] at h1
  obtain ⟨h1, h2⟩ := h1
  cases h1
  cases o with
  | ok a => exact (hk a).out t t' h2
  | err e => exact ⟨rfl, h2⟩
  | panic p => exact ⟨rfl, h2⟩
  | oof => exact ⟨rfl, h2⟩

theorem MSim.wrapErr {m m' : M α} (w : Str) (h : MSim H m m') : MSim H (.wrapErr w m) (.wrapErr w m') := by
  refine ⟨fun s s' hs => ?_⟩
  have h1 := h.out s s' hs
  unfold M.wrapErr
  rcases hm : m s with ⟨o, t⟩
  rcases hm' : m' s' with ⟨o', t'⟩
  rw [hm, hm'] at h1
  obtain ⟨h1, h2⟩ := h1
  cases h1
  cases o <;> exact ⟨rfl, h2⟩

theorem safeCall_both {m m' : M Str} (h : MSim H m m') : MSim H (safeCall m) (safeCall m') := by
  refine ⟨fun s s' hs => ?_⟩
  have h1 := h.out s s' hs
  unfold safeCall
  rcases hm : m s with ⟨o, t⟩
  rcases hm' : m' s' with ⟨o', t'⟩
  rw [hm, hm'] at h1
  obtain ⟨h1, h2⟩ := h1
  cases h1
  cases o <;> exact ⟨rfl, h2⟩

theorem ite_both {c : Prop} [Decidable c] {m n m' n' : M α} (h : MSim H m m') (h' : MSim H n n') :
    MSim H (if c then m else n) (if c then m' else n') := by
  split <;> assumption

theorem collectM_both {f f' : α → M (Option Str)} (h : ∀ a, MSim H (f a) (f' a)) (l : List α) :
    MSim H (collectM f l) (collectM f' l) := by
  induction l with
  | nil => exact sim_const _
  | cons a l ih => exact (h a).bind fun o => ih.bind fun r => sim_const _

theorem commitArg_both (v : Val) : MSim H (commitArg v) (commitArg v) := by
  refine ⟨fun s s' hs => ?_⟩
  unfold commitArg
  rw [hs.store]
  cases s.store.commit v with
  | none => exact ⟨rfl, hs⟩
  | some r => exact ⟨rfl, rfl, hs.usedA, hs.usedF, hs.heap⟩

theorem mustFragment_both (ctx : Ctx) : MSim H (mustFragment ctx) (mustFragment ctx) := by
  unfold mustFragment
  split <;> exact sim_const _

theorem argBuild_both (fr : Frame) (i : Int) : MSim H (argBuild fr i) (argBuild fr i) := by
  unfold argBuild
  split
  · exact sim_const _
  · refine MSim.bind ⟨fun s s' hs => ⟨rfl, hs.store, ?_, hs.usedF, hs.heap⟩⟩ fun _ => ?_
    · show _ :: s'.usedA = _ :: s.usedA
      rw [hs.usedA]
    · split
      · exact commitArg_both _
      · exact sim_const _

variable {rec rec' : Rec} (hrec : RecSim H rec rec')
include hrec

theorem fragmentBuild_both (ctx : Ctx) (fr : Frame) (i : Int) :
    MSim H (fragmentBuild rec ctx fr i) (fragmentBuild rec' ctx fr i) := by
  unfold fragmentBuild
  split
  · exact sim_const _
  · refine MSim.bind ⟨fun s s' hs => ⟨rfl, hs.store, hs.usedA, ?_, hs.heap⟩⟩ fun _ => ?_
    · show _ :: s'.usedF = _ :: s.usedF
      rw [hs.usedF]
    · split
      · exact hrec _ _
      · exact sim_const _

theorem build_branch_both (ctx : Ctx) (b : Builder) {k k' : Except Err Str → M Str}
    (hk : ∀ r, MSim H (k r) (k' r)) :
    MSim H (fun s => match rec ctx (.build b) s with
      | (.ok t, s') => k (.ok t) s'
      | (.err e, s') => k (.error e) s'
      | (.panic p, s') => (.panic p, s')
      | (.oof, s') => (.oof, s'))
      (fun s => match rec' ctx (.build b) s with
      | (.ok t, s') => k' (.ok t) s'
      | (.err e, s') => k' (.error e) s'
      | (.panic p, s') => (.panic p, s')
      | (.oof, s') => (.oof, s')) := by
  refine ⟨fun s s' hs => ?_⟩
  have h1 := (hrec ctx (.build b)).out s s' hs
  rcases hm : rec ctx (.build b) s with ⟨o, t⟩
  rcases hm' : rec' ctx (.build b) s' with ⟨o', t'⟩
  rw [hm, hm'] at h1
  obtain ⟨h1, h2⟩ := h1
  cases h1
  cases o with
  | ok a => exact (hk _).out t t' h2
  | err e => exact (hk _).out t t' h2
  | panic p => exact ⟨rfl, h2⟩
  | oof => exact ⟨rfl, h2⟩

omit hrec in
theorem withOwnStore_both (style : Style) {m m' : M Str} (hm : MSim H m m') : MSim H (withOwnStore style m) (withOwnStore style m') := by
  refine ⟨fun s s' hs => ?_⟩
  unfold withOwnStore
  have h := hm.out { s with store := .new style, usedA := [], usedF := [] }
    { s' with store := .new style, usedA := [], usedF := [] } ⟨rfl, rfl, rfl, hs.heap⟩
  rcases e1 : m { s with store := .new style, usedA := [], usedF := [] } with ⟨o, t⟩
  rcases e2 : m' { s' with store := .new style, usedA := [], usedF := [] } with ⟨o', t'⟩
  rw [e1, e2] at h
  obtain ⟨h1, h2⟩ := h
  cases h1
  dsimp only
  rw [h2.store]
  cases o <;> exact ⟨rfl, hs.store, hs.usedA, hs.usedF, h2.heap⟩

theorem runProg_both (L : GoLib) (ctx : Ctx) : ∀ p, MSim H (runProg L rec ctx p) (runProg L rec' ctx p)
  | .ret _ => sim_const _
  | .fail _ => sim_const _
  | .panic _ _ => sim_const _
  | .commit v k => by
    unfold runProg; exact (commitArg_both v).bind fun t => runProg_both L ctx (k t)
  | .args k => by
    unfold runProg
    refine ⟨fun s s' hs => ?_⟩
    have := (runProg_both L ctx (k s.store.args)).out s s' hs
    show (runProg L rec' ctx (k s'.store.args) s').1 = (runProg L rec ctx (k s.store.args) s).1 ∧ StSim H
      (runProg L rec ctx (k s.store.args) s).2 (runProg L rec' ctx (k s'.store.args) s').2
    rw [hs.store]
    exact this
  | .build b k => by
    unfold runProg; exact build_branch_both hrec ctx b fun r => runProg_both L ctx (k r)
  | .buildWith fm b k => by
    unfold runProg
    split
    · exact runProg_both L ctx (k _)
    · exact build_branch_both hrec _ b fun r => runProg_both L ctx (k r)
  | .query style b k => by
    unfold runProg
    split
    · exact sim_const _
    · exact (withOwnStore_both style (hrec _ _)).bind fun r => runProg_both L ctx (k r)

theorem joinCompatible_both (f : FuncInfo) : MSim H (joinCompatible rec f) (joinCompatible rec' f) := by
  refine ⟨fun s s' hs => ?_⟩
  unfold joinCompatible
  split
  · exact ⟨rfl, hs⟩
  · have h := (hrec newEmptyContext.withNilFragment (.call f [.int 0])).out
      { s with store := .new question, usedA := [], usedF := [] }
      { s' with store := .new question, usedA := [], usedF := [] } ⟨rfl, rfl, rfl, hs.heap⟩
    rcases hm : rec newEmptyContext.withNilFragment (.call f [.int 0])
      { s with store := .new question, usedA := [], usedF := [] } with ⟨o, t⟩
    rcases hm' : rec' newEmptyContext.withNilFragment (.call f [.int 0])
      { s' with store := .new question, usedA := [], usedF := [] } with ⟨o', t'⟩
    rw [hm, hm'] at h
    obtain ⟨h1, h2⟩ := h
    cases h1
    cases o <;> exact ⟨rfl, hs.store, hs.usedA, hs.usedF, h2.heap⟩

theorem joinCheck_both (ctx : Ctx) (es : List Expr) : MSim H (joinCheck rec ctx es) (joinCheck rec' ctx es) := by
  induction es with
  | nil => exact sim_const _
  | cons e es ih =>
    cases e with
    | func name =>
      unfold joinCheck
      split
      · exact sim_const _
      · refine MSim.bind (joinCompatible_both hrec _) fun ok => ?_
        split
        · exact ih.bind fun n => sim_const _
        · exact sim_const _
    | _ => unfold joinCheck; exact ih

theorem joinLoop_both (ctx : Ctx) (es : List Expr) (sep : Str) (from_ to : Int) (n : Nat) (i : Int)
    (acc : Str) : MSim H (joinLoop rec ctx es sep from_ to n i acc) (joinLoop rec' ctx es sep from_ to n i acc) := by
  induction n generalizing i acc with
  | zero => exact sim_const _
  | succ n ih =>
    refine ⟨fun s s' hs => ?_⟩
    have h1 := (hrec ctx (.clause (joinInst es i))).out s s' hs
    unfold joinLoop
    rcases hm : rec ctx (.clause (joinInst es i)) s with ⟨o, t⟩
    rcases hm' : rec' ctx (.clause (joinInst es i)) s' with ⟨o', t'⟩
    rw [hm, hm'] at h1
    obtain ⟨h1, h2⟩ := h1
    cases h1
    cases o with
    | ok a =>
      dsimp only
      split
      · exact ⟨rfl, h2⟩
      · exact (ih _ _).out t t' h2
    | err e =>
      dsimp only
      split
      · split <;> exact ⟨rfl, h2⟩
      · exact ⟨rfl, h2⟩
    | panic p => exact ⟨rfl, h2⟩
    | oof => exact ⟨rfl, h2⟩

theorem funcJoin_both (L : GoLib) (fuel : Nat) (ctx : Ctx) (tmpl sep : Str) (is : List Int) :
    MSim H (funcJoin L rec fuel ctx tmpl sep is) (funcJoin L rec' fuel ctx tmpl sep is) := by
  unfold funcJoin
  split
  · exact sim_const _
  · dsimp only
    split
    · exact sim_const _
    · split
      · exact sim_const _
      · refine MSim.bind (joinCheck_both hrec ctx _) fun n => ?_
        split
        · exact sim_const _
        · exact joinLoop_both hrec ..

theorem callBody_both (L : GoLib) (fuel : Nat) (ctx : Ctx) (body : Body) (vs : List ArgVal) :
    MSim H (callBody L rec fuel ctx body vs) (callBody L rec' fuel ctx body vs) := by
  unfold callBody
  split
  · exact (mustFragment_both ctx).bind fun fr => argBuild_both fr _
  · exact (mustFragment_both ctx).bind fun fr => fragmentBuild_both hrec ctx fr _
  · exact funcJoin_both hrec ..
  · exact runProg_both hrec L ctx _

theorem evalCall_both (L : GoLib) (fuel : Nat) (ctx : Ctx) (f : FuncInfo) (args : List CallArg) :
    MSim H (evalCall L rec fuel ctx f args) (evalCall L rec' fuel ctx f args) := by
  unfold evalCall
  split
  · exact sim_const _
  · dsimp only
    split
    · exact sim_const _
    · exact sim_const _
    · exact sim_const _
    · refine MSim.wrapErr _ (safeCall_both ?_)
      split
      · exact (callBody_both hrec L fuel ctx _ _).bind fun s => sim_const _
      · exact sim_const _

theorem evalExpr_both (L : GoLib) (fuel : Nat) (ctx : Ctx) (e : Expr) :
    MSim H (evalExpr L rec fuel ctx e) (evalExpr L rec' fuel ctx e) := by
  unfold evalExpr
  split
  · exact sim_const _
  · refine (mustFragment_both ctx).bind fun fr => ?_
    split
    · exact sim_const _
    · exact argBuild_both fr _
  · unfold evalFunction
    split
    · exact sim_const _
    · exact evalCall_both hrec ..
  · exact sim_const _

theorem buildClause_both (L : GoLib) (fuel : Nat) (ctx : Ctx) (es : List Expr) :
    MSim H (buildClause L rec fuel ctx es) (buildClause L rec' fuel ctx es) := by
  induction es with
  | nil => exact sim_const _
  | cons e es ih =>
    exact (evalExpr_both hrec L fuel ctx e).bind fun s => ih.bind fun t => sim_const _

theorem buildBody_both (L : GoLib) (fuel : Nat) (ctx : Ctx) (f : Fragment) :
    MSim H (buildBody L rec fuel ctx f) (buildBody L rec' fuel ctx f) := by
  unfold buildBody
  split
  · exact sim_const _
  · refine MSim.bind (MSim.wrapErr _ (buildClause_both hrec ..)) fun body => ⟨fun s s' hs => ?_⟩
    have : ∀ fr, checkUsage fr s' = checkUsage fr s := by
      intro fr
      unfold checkUsage
      rw [hs.usedA, hs.usedF]
    rw [this]
    split <;> exact ⟨rfl, hs⟩

theorem buildFragment_both (L : GoLib) (fuel : Nat) (ctx : Ctx) (f : Fragment) :
    MSim H (buildFragment L rec fuel ctx f) (buildFragment L rec' fuel ctx f) := by
  refine ⟨fun s s' hs => ?_⟩
  have h := (buildBody_both hrec L fuel (ctx.withFragment f) f).out
    { s with usedA := [], usedF := [] } { s' with usedA := [], usedF := [] } ⟨hs.store, rfl, rfl, hs.heap⟩
  exact ⟨h.1, h.2.store, hs.usedA, hs.usedF, h.2.heap⟩

theorem buildCTEs_both (ctx : Ctx) (b : QB) (dep : Deps) :
    MSim H (buildCTEs rec ctx b dep) (buildCTEs rec' ctx b dep) := by
  unfold buildCTEs
  refine MSim.bind (collectM_both (fun c => ?_) _) fun _ => sim_const _
  split
  · exact sim_const _
  · exact MSim.bind (MSim.wrapErr _ (hrec _ _)) fun q => sim_const _

theorem buildUnion_both (ctx : Ctx) (us : List Builder) :
    MSim H (buildUnion rec ctx us) (buildUnion rec' ctx us) := by
  unfold buildUnion
  refine MSim.bind (collectM_both (fun c => ?_) _) fun _ => sim_const _
  exact MSim.bind (hrec _ _) fun q => sim_const _

theorem buildFrom_both (L : GoLib) (fuel : Nat) (ctx : Ctx) {b b' : QB} (dep : Deps)
    (hd : b'.distinct = b.distinct) (hl : b'.tableList = b.tableList) :
    MSim H (buildFrom L rec fuel ctx b dep) (buildFrom L rec' fuel ctx b' dep) := by
  unfold buildFrom
  rw [hd, hl]
  refine MSim.bind (collectM_both (fun c => ?_) _) fun _ => sim_const _
  split
  · exact sim_const _
  · refine MSim.bind (MSim.wrapErr _ ?_) fun q => sim_const _
    split
    · exact buildFragment_both hrec ..
    · exact sim_const _

end

/-! ## similar query builders -/

/-- What makes query builders similar. -/
structure QBRel (Q : QB → QB → Prop) : Prop where
  errors : ∀ {b b'}, Q b b' → b'.errors = b.errors
  deps : ∀ {b b'}, Q b b' → b'.collectDependencies = b.collectDependencies
  ctes : ∀ {b b'}, Q b b' → b'.ctes = b.ctes
  distinct : ∀ {b b'}, Q b b' → b'.distinct = b.distinct
  tables : ∀ {b b'}, Q b b' → b'.tableList = b.tableList
  conditions : ∀ {b b'}, Q b b' → b'.conditions = b.conditions
  groupbys : ∀ {b b'}, Q b b' → b'.groupbys = b.groupbys
  orders : ∀ {b b'}, Q b b' → b'.orders = b.orders
  limit : ∀ {b b'}, Q b b' → b'.limit = b.limit
  offset : ∀ {b b'}, Q b b' → b'.offset = b.offset
  unions : ∀ {b b'}, Q b b' → b'.unions = b.unions
  debug : ∀ {b b'}, Q b b' → b'.debug = b.debug
  touches : ∀ {b b'}, Q b b' → b'.touches = b.touches
  selects : ∀ {b b'}, Q b b' → ∀ p, b'.selects.withPrefix p = b.selects.withPrefix p
  ordersQ : ∀ {b b'}, Q b b' → ∀ ts es,
    Q { b with touches := b.touches.appendFragments ts, errors := b.errors ++ es }
      { b' with touches := b'.touches.appendFragments ts, errors := b'.errors ++ es }
  selectsQ : ∀ {b b'}, Q b b' → ∀ p,
    Q { b with selects := b.selects.withPrefix p } { b' with selects := b'.selects.withPrefix p }

/-- Query builders similar one by one. -/
structure HeapRel (Q : QB → QB → Prop) (h h' : List QB) : Prop where
  none : ∀ r : Nat, h[r]? = Option.none → h'[r]? = Option.none
  some : ∀ (r : Nat) (b : QB), h[r]? = Option.some b → ∃ b', h'[r]? = Option.some b' ∧ Q b b'

theorem HeapRel.set {Q : QB → QB → Prop} {h h' : List QB} (hh : HeapRel Q h h') {b b' : QB} (hb : Q b b') (r : Nat) :
    HeapRel Q (h.set r b) (h'.set r b') := by
  have hlen : ∀ k : Nat, k < h.length ↔ k < h'.length := by
    intro k
    constructor
    · intro hk
      obtain ⟨c, hc, _⟩ := hh.some k _ (List.getElem?_eq_getElem hk)
      exact (List.getElem?_eq_some_iff.1 hc).1
    · intro hk
      apply Classical.byContradiction
      intro h1
      have := hh.none k (List.getElem?_eq_none (by omega))
      rw [List.getElem?_eq_getElem hk] at this; cases this
  constructor
  · intro k hk
    simp only [List.getElem?_set] at hk ⊢
    split at hk
    · rename_i e; rw [if_pos e]
      split at hk
      · cases hk
      · rename_i h1; rw [if_neg (fun h2 => h1 ((hlen r).2 h2))]
    · rename_i e; rw [if_neg e]; exact hh.none k hk
  · intro k c hk
    simp only [List.getElem?_set] at hk ⊢
    split at hk
    · rename_i e; rw [if_pos e]
      split at hk
      · rename_i h1; cases hk; exact ⟨b', by rw [if_pos ((hlen r).1 h1)], hb⟩
      · cases hk
    · rename_i e; rw [if_neg e]; exact hh.some k c hk

section
variable {Q : QB → QB → Prop} (hQ : QBRel Q)
include hQ

/-- Reading a query builder: continue with similar ones in similar states. -/
theorem getQB_both (r : Nat) {k k' : QB → M α} (hk : ∀ b b', Q b b' → MSim (HeapRel Q) (k b) (k' b')) :
    MSim (HeapRel Q) (M.bind (getQB r) k) (M.bind (getQB r) k') := by
  refine ⟨fun s s' hs => ?_⟩
  unfold M.bind getQB
  cases h : s.heap[r]? with
  | none => rw [hs.heap.none r h]; exact ⟨rfl, hs⟩
  | some b =>
    obtain ⟨b', h1, h2⟩ := hs.heap.some r b h
    rw [h1]
    exact (hk b b' h2).out s s' hs

theorem modifyQB_both (r : Nat) {f f' : QB → QB} (hf : ∀ b b', Q b b' → Q (f b) (f' b')) :
    MSim (HeapRel Q) (modifyQB r f) (modifyQB r f') := by
  refine ⟨fun s s' hs => ?_⟩
  unfold modifyQB
  cases h : s.heap[r]? with
  | none => rw [hs.heap.none r h]; exact ⟨rfl, hs⟩
  | some b =>
    obtain ⟨b', h1, h2⟩ := hs.heap.some r b h
    rw [h1]
    exact ⟨rfl, hs.store, hs.usedA, hs.usedF, hs.heap.set (hf b b' h2) r⟩

omit hQ in
theorem debugLog_both (L : GoLib) (q : Str) : MSim (HeapRel Q) (debugLog L q) (debugLog L q) := by
  refine ⟨fun s s' hs => ?_⟩
  unfold debugLog
  rw [hs.store]
  split
  · exact ⟨rfl, rfl, hs.usedA, hs.usedF, hs.heap⟩
  · exact ⟨rfl, rfl, hs.usedA, hs.usedF, hs.heap⟩
  · exact ⟨rfl, hs⟩
  · exact ⟨rfl, hs⟩

variable {rec rec' : Rec} (hrec : RecSim (HeapRel Q) rec rec')
include hrec

theorem buildOrders_both (L : GoLib) (fuel : Nat) (ctx : Ctx) (r : Nat) :
    MSim (HeapRel Q) (buildOrders L rec fuel ctx r) (buildOrders L rec' fuel ctx r) := by
  unfold buildOrders
  refine getQB_both hQ r fun b b' hb => ?_
  dsimp only
  rw [hQ.distinct hb, hQ.orders hb]
  refine MSim.bind (modifyQB_both hQ r fun c c' hc => hQ.ordersQ hc _ _) fun _ => ?_
  exact buildFragment_both hrec ..

/-- The selects are built only after the prefix has been set; the prefix is the same. -/
theorem buildSelects_both (L : GoLib) (fuel : Nat) (ctx : Ctx) (r : Nat) :
    MSim (HeapRel Q) (buildSelects L rec fuel ctx r) (buildSelects L rec' fuel ctx r) := by
  refine ⟨fun s s' hs => ?_⟩
  unfold buildSelects
  cases h : s.heap[r]? with
  | none =>
    have h' := hs.heap.none r h
    have e1 : ∀ f, modifyQB r f s = (.panic .nilDereference, s) := fun f => by unfold modifyQB; rw [h]
    have e2 : ∀ f, modifyQB r f s' = (.panic .nilDereference, s') := fun f => by unfold modifyQB; rw [h']
    unfold M.bind
    rw [e1, e2]
    exact ⟨rfl, hs⟩
  | some b =>
    obtain ⟨b', h', hb⟩ := hs.heap.some r b h
    obtain ⟨p, hp⟩ : ∃ p, p = if b.distinct then lit "SELECT DISTINCT" else lit "SELECT" := ⟨_, rfl⟩
    have e1 : modifyQB r (fun b =>
        let prefix_ := if b.distinct then lit "SELECT DISTINCT" else lit "SELECT"
        { b with selects := b.selects.withPrefix prefix_ }) s
        = (.ok (), setQB s r { b with selects := b.selects.withPrefix p }) := by
      unfold modifyQB; rw [h, hp]; rfl
    have e2 : modifyQB r (fun b =>
        let prefix_ := if b.distinct then lit "SELECT DISTINCT" else lit "SELECT"
        { b with selects := b.selects.withPrefix prefix_ }) s'
        = (.ok (), setQB s' r { b' with selects := b'.selects.withPrefix p }) := by
      unfold modifyQB; rw [h', hp, ← hQ.distinct hb]; rfl
    have hl := (List.getElem?_eq_some_iff.1 h).1
    have hl' := (List.getElem?_eq_some_iff.1 h').1
    have g1 : getQB r (setQB s r { b with selects := b.selects.withPrefix p })
        = (.ok { b with selects := b.selects.withPrefix p }, setQB s r { b with selects := b.selects.withPrefix p }) := by
      unfold getQB setQB; rw [List.getElem?_set_self hl]
    have g2 : getQB r (setQB s' r { b' with selects := b'.selects.withPrefix p })
        = (.ok { b' with selects := b'.selects.withPrefix p }, setQB s' r { b' with selects := b'.selects.withPrefix p }) := by
      unfold getQB setQB; rw [List.getElem?_set_self hl']
    have hs2 : StSim (HeapRel Q) (setQB s r { b with selects := b.selects.withPrefix p })
        (setQB s' r { b' with selects := b'.selects.withPrefix p }) :=
      ⟨hs.store, hs.usedA, hs.usedF, hs.heap.set (hQ.selectsQ hb p) r⟩
    have key : ∀ (f : Fragment), MSim (HeapRel Q)
        (M.bind (buildFragment L rec fuel ctx f) fun sel =>
          M.bind (getQB r) fun b =>
          M.bind (buildFragment L rec fuel ctx b.touches) fun touches =>
          if sel = [] then .err .noColumns
          else .pure (if touches = [] then sel else sel ++ lit ", " ++ touches))
        (M.bind (buildFragment L rec' fuel ctx f) fun sel =>
          M.bind (getQB r) fun b =>
          M.bind (buildFragment L rec' fuel ctx b.touches) fun touches =>
          if sel = [] then .err .noColumns
          else .pure (if touches = [] then sel else sel ++ lit ", " ++ touches)) := by
      intro f
      refine MSim.bind (buildFragment_both hrec ..) fun sel => getQB_both hQ r fun c c' hc => ?_
      rw [hQ.touches hc]
      exact MSim.bind (buildFragment_both hrec ..) fun t => ite_both (sim_const _) (sim_const _)
    have := (key (b.selects.withPrefix p)).out _ _ hs2
    rw [hQ.selects hb p] at this
    unfold M.bind at this ⊢
    rw [e1, e2]
    dsimp only
    rw [g1, g2]
    dsimp only
    rw [hQ.selects hb p]
    exact this

theorem buildInternal_both (L : GoLib) (fuel : Nat) (ctx : Ctx) (r : Nat) :
    MSim (HeapRel Q) (buildInternal L rec fuel ctx r) (buildInternal L rec' fuel ctx r) := by
  unfold buildInternal
  refine getQB_both hQ r fun b b' hb => ?_
  rw [hQ.errors hb, hQ.deps hb]
  refine ite_both (sim_const _) (MSim.bind (sim_const _) fun dep => ?_)
  refine MSim.bind ?_ fun sq => ?_
  · unfold buildCTEs; rw [hQ.ctes hb]; exact buildCTEs_both hrec ctx b dep
  refine getQB_both hQ r fun b b' hb => MSim.bind (buildFrom_both hrec L fuel ctx dep (hQ.distinct hb) (hQ.tables hb)) fun f => ?_
  refine getQB_both hQ r fun b b' hb => ?_
  rw [hQ.conditions hb]
  refine MSim.bind (buildFragment_both hrec ..) fun w => getQB_both hQ r fun b b' hb => ?_
  rw [hQ.groupbys hb]
  refine MSim.bind (buildFragment_both hrec ..) fun g => MSim.bind (buildOrders_both hQ hrec ..) fun o => getQB_both hQ r fun b b' hb => ?_
  dsimp only
  rw [hQ.limit hb, hQ.offset hb]
  refine MSim.bind (buildSelects_both hQ hrec ..) fun sel => getQB_both hQ r fun b b' hb => ?_
  rw [hQ.unions hb]
  refine MSim.bind (ite_both (MSim.bind (buildUnion_both hrec ..) fun u => sim_const _) (sim_const _)) fun q => ?_
  refine getQB_both hQ r fun b b' hb => ?_
  rw [hQ.debug hb]
  exact MSim.bind (ite_both (debugLog_both L q) (sim_const _)) fun _ => sim_const _

theorem step_both (L : GoLib) (fuel : Nat) : RecSim (HeapRel Q) (step L rec fuel) (step L rec' fuel) := by
  intro ctx t
  unfold step
  split
  · unfold buildBuilder
    split <;> first
      | exact sim_const _
      | exact buildFragment_both hrec ..
      | exact buildInternal_both hQ hrec ..
      | exact runProg_both hrec ..
  · exact buildClause_both hrec ..
  · exact evalCall_both hrec ..

end

theorem run_both {Q : QB → QB → Prop} (hQ : QBRel Q) (L : GoLib) (n : Nat) :
    RecSim (HeapRel Q) (run L n) (run L n) := by
  induction n with
  | zero => exact fun _ _ => sim_const _
  | succ n ih => exact step_both hQ ih L n

/-- Similar query builders give the same queries. -/
theorem buildQuery_both {Q : QB → QB → Prop} (hQ : QBRel Q) (L : GoLib) (n : Nat) (b : Builder) (style : Style)
    {heap heap' : List QB} (h : HeapRel Q heap heap') : buildQuery L n b style heap' = buildQuery L n b style heap := by
  unfold buildQuery buildQueryS
  split
  · rfl
  · rename_i ctx _
    have := (run_both hQ L n ctx (.build b)).out (St.init style heap) (St.init style heap') ⟨rfl, rfl, rfl, h⟩
    rcases hm : run L n ctx (.build b) (St.init style heap) with ⟨o, t⟩
    rcases hm' : run L n ctx (.build b) (St.init style heap') with ⟨o', t'⟩
    rw [hm, hm'] at this
    obtain ⟨h1, h2⟩ := this
    cases h1
    cases o <;> simp only
    rw [h2.store]

end Sqlf
