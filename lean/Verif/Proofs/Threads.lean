import Verif.Model.Threads
import Verif.Proofs.Again
/-!
# A goroutine follows the sequential evaluator

`Follows K G href t res`: whatever other goroutines do between the accesses of `t`, as long as
memory stays related by `K` to the memory `href` of the sequential run, `t` ends with the outcome
and the private state of `res`.  In turn, what `t` does to memory is described by `G`.
-/

namespace Sqlf

open Spec

/-- What belongs to the build. -/
def St.priv (s : St) : Priv := ⟨s.store, s.usedA, s.usedF, s.log⟩

/-- The state of a sequential run. -/
def Priv.st (p : Priv) (h : List QB) : St := ⟨p.store, p.usedA, p.usedF, h, p.log⟩

/-- Follows the sequential run to the end. -/
def Follows (K : List QB → List QB → Prop) (G : Nat × Field → List QB → List QB → Prop) : List QB → Th (Out α × Priv) → Out α × St → Prop
  | href, .done a, res => a.1 = res.1 ∧ a.2 = res.2.priv ∧ res.2.heap = href
  | href, .read r _ k, res => ∀ h, K href h → Follows K G href (k h[r]?) res
  | href, .write r f u k, res => ∃ href', ∀ h, K href h →
      K href' (assign r u h) ∧ G (r, f) h (assign r u h) ∧ Follows K G href' (k h[r]?.isSome) res

/-- Code of a goroutine and sequential code. -/
structure CSim (K : List QB → List QB → Prop) (G : Nat × Field → List QB → List QB → Prop) (c : CM α) (m : M α) : Prop where
  out : ∀ p h, Follows K G h (c p) (m (p.st h))

def CRecSim (K : List QB → List QB → Prop) (G : Nat × Field → List QB → List QB → Prop) (crec : CRec) (rec : Rec) : Prop := ∀ ctx t, CSim K G (crec ctx t) (rec ctx t)

section
variable {K : List QB → List QB → Prop} {G : Nat × Field → List QB → List QB → Prop}

/-- One after the other. -/
theorem Follows.bind {t : Th (Out α × Priv)} {res : Out α × St} {h : List QB} (ht : Follows K G h t res)
    {g : Out α × Priv → Th (Out β × Priv)} {res' : Out β × St}
    (hg : Follows K G res.2.heap (g (res.1, res.2.priv)) res') : Follows K G h (t.bind g) res' := by
  induction t generalizing h with
  | done a =>
    obtain ⟨h1, h2, h3⟩ := ht
    subst h3
    have : a = (res.1, res.2.priv) := by rw [← h1, ← h2]
    rw [this]
    exact hg
  | read r fs k ih => exact fun h' hK => ih _ (ht h' hK)
  | write r f u k ih =>
    obtain ⟨href', ht⟩ := ht
    exact ⟨href', fun h' hK => ⟨(ht h' hK).1, (ht h' hK).2.1, ih _ (ht h' hK).2.2⟩⟩

theorem csim_const (o : Out α) : CSim K G (fun p => .done (o, p)) (fun s => (o, s)) := ⟨fun _ _ => ⟨rfl, rfl, rfl⟩⟩

/-- Sequential code with a continuation for every outcome. -/
def mafter (m : M α) (k : Out α → M β) : M β := fun s => k (m s).1 (m s).2

theorem CSim.after {c : CM α} {m : M α} {k : Out α → CM β} {k' : Out α → M β} (h : CSim K G c m)
    (hk : ∀ o, CSim K G (k o) (k' o)) : CSim K G (c.after k) (mafter m k') :=
  ⟨fun p hp => (h.out p hp).bind ((hk _).out _ _)⟩

theorem mbind_eq (m : M α) (k : α → M β) : M.bind m k = mafter m fun
    | .ok a => k a
    | .err e => fun s => (.err e, s)
    | .panic q => fun s => (.panic q, s)
    | .oof => fun s => (.oof, s) := by
  funext s
  unfold M.bind mafter
  rcases m s with ⟨o, s'⟩
  cases o <;> rfl

theorem mwrapErr_eq (w : Str) (m : M α) : M.wrapErr w m = mafter m fun
    | .err e => fun s => (.err (.wrap w e), s)
    | o => fun s => (o, s) := by
  funext s
  unfold M.wrapErr mafter
  rcases m s with ⟨o, s'⟩
  cases o <;> rfl

theorem safeCall_eq (m : M Str) : safeCall m = mafter m fun
    | .panic q => fun s => (.err q.toErr, s)
    | o => fun s => (o, s) := by
  funext s
  unfold safeCall mafter
  rcases m s with ⟨o, s'⟩
  cases o <;> rfl

theorem CSim.bind {c : CM α} {m : M α} {k : α → CM β} {k' : α → M β} (h : CSim K G c m)
    (hk : ∀ a, CSim K G (k a) (k' a)) : CSim K G (c.bind k) (M.bind m k') := by
  rw [mbind_eq]
  refine h.after fun o => ?_
  cases o with
  | ok a => exact hk a
  | err e => exact csim_const _
  | panic e => exact csim_const _
  | oof => exact csim_const _

theorem CSim.wrapErr {c : CM α} {m : M α} (w : Str) (h : CSim K G c m) : CSim K G (.wrapErr w c) (.wrapErr w m) := by
  rw [mwrapErr_eq]
  refine h.after fun o => ?_
  cases o <;> exact csim_const _

theorem safeCall_csim {c : CM Str} {m : M Str} (h : CSim K G c m) : CSim K G (csafeCall c) (safeCall m) := by
  rw [safeCall_eq]
  refine h.after fun o => ?_
  cases o <;> exact csim_const _

theorem ite_csim {P : Prop} [Decidable P] {c c' : CM α} {m m' : M α} (h : CSim K G c m) (h' : CSim K G c' m') :
    CSim K G (if P then c else c') (if P then m else m') := by
  split <;> assumption

theorem collectM_csim {f : α → CM (Option Str)} {f' : α → M (Option Str)} (h : ∀ a, CSim K G (f a) (f' a)) (l : List α) :
    CSim K G (ccollectM f l) (collectM f' l) := by
  induction l with
  | nil => exact csim_const _
  | cons a l ih => exact (h a).bind fun o => ih.bind fun r => csim_const _

theorem commitArg_csim (v : Val) : CSim K G (ccommitArg v) (commitArg v) := by
  refine ⟨fun p h => ?_⟩
  unfold ccommitArg commitArg Priv.st
  dsimp only
  cases p.store.commit v with
  | none => exact ⟨rfl, rfl, rfl⟩
  | some r => exact ⟨rfl, rfl, rfl⟩

theorem mustFragment_csim (ctx : Ctx) : CSim K G (cmustFragment ctx) (mustFragment ctx) := by
  unfold cmustFragment mustFragment
  cases ctx.frame <;> exact csim_const _

theorem argBuild_csim (fr : Frame) (i : Int) : CSim K G (cargBuild fr i) (argBuild fr i) := by
  unfold cargBuild argBuild
  cases position i fr.args.length with
  | none => exact csim_const _
  | some k =>
    refine CSim.bind (c := cmarkA k) (m := markA k) ⟨fun p h => ⟨rfl, rfl, rfl⟩⟩ fun _ => ?_
    cases fr.args[k]? with
    | some v => exact commitArg_csim _
    | none => exact csim_const _

variable {crec : CRec} {rec : Rec} (hrec : CRecSim K G crec rec)
include hrec

theorem fragmentBuild_csim (ctx : Ctx) (fr : Frame) (i : Int) :
    CSim K G (cfragmentBuild crec ctx fr i) (fragmentBuild rec ctx fr i) := by
  unfold cfragmentBuild fragmentBuild
  cases position i fr.frags.length with
  | none => exact csim_const _
  | some k =>
    refine CSim.bind (c := cmarkF k) (m := markF k) ⟨fun p h => ⟨rfl, rfl, rfl⟩⟩ fun _ => ?_
    cases fr.frags[k]? with
    | some v => exact hrec _ _
    | none => exact csim_const _

theorem build_branch_csim (ctx : Ctx) (b : Builder) {k : Except Err Str → CM Str} {k' : Except Err Str → M Str}
    (hk : ∀ r, CSim K G (k r) (k' r)) :
    CSim K G (.after (crec ctx (.build b)) fun
      | .ok t => k (.ok t)
      | .err e => k (.error e)
      | .panic q => .panic q
      | .oof => .oof)
      (fun s => match rec ctx (.build b) s with
      | (.ok t, s') => k' (.ok t) s'
      | (.err e, s') => k' (.error e) s'
      | (.panic p, s') => (.panic p, s')
      | (.oof, s') => (.oof, s')) := by
  have : (fun s => match rec ctx (.build b) s with
      | (.ok t, s') => k' (.ok t) s'
      | (.err e, s') => k' (.error e) s'
      | (.panic p, s') => (.panic p, s')
      | (.oof, s') => (.oof, s')) = mafter (rec ctx (.build b)) fun
      | .ok t => k' (.ok t)
      | .err e => k' (.error e)
      | .panic q => fun s => (.panic q, s)
      | .oof => fun s => (.oof, s) := by
    funext s
    unfold mafter
    rcases rec ctx (.build b) s with ⟨o, s'⟩
    cases o <;> rfl
  rw [this]
  refine (hrec _ _).after fun o => ?_
  cases o with
  | ok a => exact hk _
  | err e => exact hk _
  | panic e => exact csim_const _
  | oof => exact csim_const _

omit hrec in
theorem withOwnStore_csim (style : Style) {m : CM Str} {m' : M Str} (hm : CSim K G m m') :
    CSim K G (cwithOwnStore style m) (withOwnStore style m') := by
  refine ⟨fun p h => ?_⟩
  unfold cwithOwnStore withOwnStore
  have h1 := hm.out { p with store := .new style, usedA := [], usedF := [] } h
  refine h1.bind ?_
  have e : { p.st h with store := .new style, usedA := [], usedF := [] } =
    ({ p with store := .new style, usedA := [], usedF := [] } : Priv).st h := rfl
  rw [e]
  rcases m' (({ p with store := .new style, usedA := [], usedF := [] } : Priv).st h) with ⟨o, t⟩
  cases o <;> exact ⟨rfl, rfl, rfl⟩

theorem runProg_csim (L : GoLib) (ctx : Ctx) : ∀ p, CSim K G (crunProg L crec ctx p) (runProg L rec ctx p)
  | .ret _ => csim_const _
  | .fail _ => csim_const _
  | .panic _ _ => csim_const _
  | .commit v k => by
    unfold crunProg runProg; exact (commitArg_csim v).bind fun t => runProg_csim L ctx (k t)
  | .args k => by
    unfold crunProg runProg
    exact ⟨fun p h => (runProg_csim L ctx (k p.store.args)).out p h⟩
  | .build b k => by
    unfold crunProg runProg; exact build_branch_csim hrec ctx b fun r => runProg_csim L ctx (k r)
  | .buildWith fm b k => by
    unfold crunProg runProg
    cases contextWithFuncs L ctx fm with
    | error e => exact runProg_csim L ctx (k _)
    | ok ctx' => exact build_branch_csim hrec _ b fun r => runProg_csim L ctx (k r)
  | .query style b k => by
    unfold crunProg runProg
    cases newContext L with
    | none => exact csim_const _
    | some own => exact (withOwnStore_csim style (hrec own (.build b))).bind fun r => runProg_csim L ctx (k r)

theorem joinCompatible_csim (f : FuncInfo) : CSim K G (cjoinCompatible crec f) (joinCompatible rec f) := by
  refine ⟨fun p h => ?_⟩
  unfold cjoinCompatible joinCompatible
  by_cases hs : (!joinSignatureOk f) = true
  · rw [if_pos hs, if_pos hs]; exact ⟨rfl, rfl, rfl⟩
  · rw [if_neg hs, if_neg hs]
    have h1 := (hrec newEmptyContext.withNilFragment (.call f [.int 0])).out
      { p with store := .new question, usedA := [], usedF := [] } h
    refine h1.bind ?_
    have e : { p.st h with store := .new question, usedA := [], usedF := [] } =
      ({ p with store := .new question, usedA := [], usedF := [] } : Priv).st h := rfl
    rw [e]
    rcases rec newEmptyContext.withNilFragment (.call f [.int 0])
      (({ p with store := .new question, usedA := [], usedF := [] } : Priv).st h) with ⟨o, t⟩
    cases o <;> exact ⟨rfl, rfl, rfl⟩

theorem joinCheck_csim (ctx : Ctx) (es : List Expr) : CSim K G (cjoinCheck crec ctx es) (joinCheck rec ctx es) := by
  induction es with
  | nil => exact csim_const _
  | cons e es ih =>
    cases e with
    | func name =>
      unfold cjoinCheck joinCheck
      cases ctx.fn name with
      | none => exact csim_const _
      | some f =>
        refine CSim.bind (joinCompatible_csim hrec _) fun ok => ?_
        exact ite_csim (ih.bind fun n => csim_const _) (csim_const _)
    | _ => unfold cjoinCheck joinCheck; exact ih

theorem joinLoop_csim (ctx : Ctx) (es : List Expr) (sep : Str) (from_ to : Int) (n : Nat) (i : Int)
    (acc : Str) : CSim K G (cjoinLoop crec ctx es sep from_ to n i acc) (joinLoop rec ctx es sep from_ to n i acc) := by
  induction n generalizing i acc with
  | zero => exact csim_const _
  | succ n ih =>
    have : joinLoop rec ctx es sep from_ to (n + 1) i acc = mafter (rec ctx (.clause (joinInst es i))) fun
      | .ok t => if to > 0 ∧ i ≥ to then M.pure (joinAppend sep acc t)
          else joinLoop rec ctx es sep from_ to n (i + 1) (joinAppend sep acc t)
      | .err e => if e.isInvalidIndex then
          if (from_ > 0 ∧ i = from_) ∨ (to > 0 ∧ i ≤ to) then M.err e else M.pure acc
        else M.err e
      | .panic q => fun s => (.panic q, s)
      | .oof => fun s => (.oof, s) := by
      funext s
      rw [joinLoop]
      unfold mafter
      rcases hm : rec ctx (.clause (joinInst es i)) s with ⟨o, s'⟩
      simp only [hm]
      cases o with
      | ok a =>
        dsimp only
        by_cases hc : to > 0 ∧ i ≥ to
        · rw [if_pos hc, if_pos hc]; rfl
        · rw [if_neg hc, if_neg hc]
      | err e =>
        dsimp only
        by_cases hc : e.isInvalidIndex = true
        · rw [if_pos hc, if_pos hc]
          by_cases hd : (from_ > 0 ∧ i = from_) ∨ (to > 0 ∧ i ≤ to)
          · rw [if_pos hd, if_pos hd]; rfl
          · rw [if_neg hd, if_neg hd]; rfl
        · rw [if_neg hc, if_neg hc]; rfl
      | panic p => rfl
      | oof => rfl
    rw [this]
    unfold cjoinLoop
    refine (hrec _ _).after fun o => ?_
    cases o with
    | ok a => exact ite_csim (csim_const _) (ih _ _)
    | err e => exact ite_csim (ite_csim (csim_const _) (csim_const _)) (csim_const _)
    | panic p => exact csim_const _
    | oof => exact csim_const _

theorem funcJoin_csim (L : GoLib) (fuel : Nat) (ctx : Ctx) (tmpl sep : Str) (is : List Int) :
    CSim K G (cfuncJoin L crec fuel ctx tmpl sep is) (funcJoin L rec fuel ctx tmpl sep is) := by
  unfold cfuncJoin funcJoin
  refine ite_csim (csim_const _) (ite_csim (csim_const _) ?_)
  cases parse L tmpl with
  | error e => exact csim_const _
  | ok es =>
    refine CSim.bind (joinCheck_csim hrec ctx _) fun n => ?_
    exact ite_csim (csim_const _) (joinLoop_csim hrec ..)

theorem callBody_csim (L : GoLib) (fuel : Nat) (ctx : Ctx) (body : Body) (vs : List ArgVal) :
    CSim K G (ccallBody L crec fuel ctx body vs) (callBody L rec fuel ctx body vs) := by
  cases body with
  | builtin b =>
    cases b with
    | arg => exact (mustFragment_csim ctx).bind fun fr => argBuild_csim fr _
    | fragment => exact (mustFragment_csim ctx).bind fun fr => fragmentBuild_csim hrec ctx fr _
    | join => exact funcJoin_csim hrec ..
  | custom p => exact runProg_csim hrec L ctx _

theorem evalCall_csim (L : GoLib) (fuel : Nat) (ctx : Ctx) (f : FuncInfo) (args : List CallArg) :
    CSim K G (cevalCall L crec fuel ctx f args) (evalCall L rec fuel ctx f args) := by
  unfold cevalCall evalCall
  refine ite_csim (csim_const _) ?_
  dsimp only
  cases evalArgs (f.paramTypes args.length) args with
  | err e => exact csim_const _
  | panic e => exact csim_const _
  | oof => exact csim_const _
  | ok vs =>
    refine CSim.wrapErr _ (safeCall_csim (ite_csim ?_ (csim_const _)))
    exact (callBody_csim hrec L fuel ctx _ _).bind fun s => csim_const _

theorem evalExpr_csim (L : GoLib) (fuel : Nat) (ctx : Ctx) (e : Expr) :
    CSim K G (cevalExpr L crec fuel ctx e) (evalExpr L rec fuel ctx e) := by
  cases e with
  | plain t => exact csim_const _
  | bindVar s i =>
    refine (mustFragment_csim ctx).bind fun fr => ?_
    cases position i fr.args.length with
    | none => exact csim_const _
    | some k => exact argBuild_csim fr _
  | call name args =>
    show CSim K G (cevalFunction L crec fuel ctx name args) (evalFunction L rec fuel ctx name args)
    unfold cevalFunction evalFunction
    cases ctx.fn name with
    | none => exact csim_const _
    | some f => exact evalCall_csim hrec ..
  | func name => exact csim_const _

theorem buildClause_csim (L : GoLib) (fuel : Nat) (ctx : Ctx) (es : List Expr) :
    CSim K G (cbuildClause L crec fuel ctx es) (buildClause L rec fuel ctx es) := by
  induction es with
  | nil => exact csim_const _
  | cons e es ih =>
    exact (evalExpr_csim hrec L fuel ctx e).bind fun s => ih.bind fun t => csim_const _

theorem buildBody_csim (L : GoLib) (fuel : Nat) (ctx : Ctx) (f : Fragment) :
    CSim K G (cbuildBody L crec fuel ctx f) (buildBody L rec fuel ctx f) := by
  unfold cbuildBody buildBody
  cases parse L f.raw with
  | error e => exact csim_const _
  | ok es =>
    refine CSim.bind (CSim.wrapErr _ (buildClause_csim hrec ..)) fun body => ⟨fun p h => ?_⟩
    have : ∀ fr, checkUsage fr (p.st h) = ccheckUsage fr p := fun fr => rfl
    rw [this]
    cases ccheckUsage { args := f.args, frags := f.frags } p <;> exact ⟨rfl, rfl, rfl⟩

theorem buildFragment_csim (L : GoLib) (fuel : Nat) (ctx : Ctx) (f : Fragment) :
    CSim K G (cbuildFragment L crec fuel ctx f) (buildFragment L rec fuel ctx f) := by
  refine ⟨fun p h => ?_⟩
  refine ((buildBody_csim hrec L fuel (ctx.withFragment f) f).out { p with usedA := [], usedF := [] } h).bind ?_
  exact ⟨rfl, rfl, rfl⟩

theorem buildCTEs_csim (ctx : Ctx) {b b' : QB} (dep : Deps) (hc : b'.ctes = b.ctes) :
    CSim K G (cbuildCTEs crec ctx b' dep) (buildCTEs rec ctx b dep) := by
  unfold cbuildCTEs buildCTEs
  rw [hc]
  refine CSim.bind (collectM_csim (fun c => ?_) _) fun _ => csim_const _
  exact ite_csim (csim_const _) (CSim.bind (CSim.wrapErr _ (hrec _ _)) fun q => csim_const _)

theorem buildUnion_csim (ctx : Ctx) (us : List Builder) :
    CSim K G (cbuildUnion crec ctx us) (buildUnion rec ctx us) := by
  unfold cbuildUnion buildUnion
  refine CSim.bind (collectM_csim (fun c => ?_) _) fun _ => csim_const _
  exact CSim.bind (hrec _ _) fun q => csim_const _

theorem buildFrom_csim (L : GoLib) (fuel : Nat) (ctx : Ctx) {b b' : QB} (dep : Deps)
    (hd : b'.distinct = b.distinct) (hl : b'.tableList = b.tableList) :
    CSim K G (cbuildFrom L crec fuel ctx b' dep) (buildFrom L rec fuel ctx b dep) := by
  unfold cbuildFrom buildFrom
  rw [hd, hl]
  refine CSim.bind (collectM_csim (fun c => ?_) _) fun _ => csim_const _
  refine ite_csim (csim_const _) (CSim.bind (CSim.wrapErr _ ?_) fun q => csim_const _)
  cases c.fragment with
  | some f => exact buildFragment_csim hrec ..
  | none => exact csim_const _

end

/-! ## query builders -/

/-- The prefix a build gives the SELECT clause. -/
def selectPrefix (b : QB) : Str := if b.distinct then lit "SELECT DISTINCT" else lit "SELECT"

/-- Two states of memory in which query builders look the same to a build, and stay so. -/
structure SameLook (Q : QB → QB → Prop) (K : List QB → List QB → Prop) (G : Nat × Field → List QB → List QB → Prop) : Prop where
  rel : QBRel Q
  settled : ∀ {b b'}, Q b b' → b.selects.pre = selectPrefix b → b'.selects = b.selects
  heap : ∀ {h h'}, K h h' → HeapRel Q h h'
  selects : ∀ {h h' : List QB} {r : Nat} {b b' : QB}, K h h' → h[r]? = some b → h'[r]? = some b' →
    K (h.set r { b with selects := b.selects.withPrefix (selectPrefix b) })
      (h'.set r { b' with selects := b'.selects.withPrefix (selectPrefix b) }) ∧
    G (r, .selectsPrefix) h' (h'.set r { b' with selects := b'.selects.withPrefix (selectPrefix b) })
  touches : ∀ {h h1 h2 : List QB} {r : Nat} {b b1 b2 : QB}, K h h1 → K h h2 → h[r]? = some b → h1[r]? = some b1 →
    h2[r]? = some b2 → ∀ ts, ts = (orderItems b.distinct 0 b.orders).2.1 → ts ≠ [] →
    K (h.set r { b with touches := b.touches.appendFragments ts })
      (h2.set r { b2 with touches := b1.touches.appendFragments ts }) ∧
    G (r, .touches) h2 (h2.set r { b2 with touches := b1.touches.appendFragments ts })
  errors : ∀ {h h1 h2 : List QB} {r : Nat} {b b1 b2 : QB}, K h h1 → K h h2 → h[r]? = some b → h1[r]? = some b1 →
    h2[r]? = some b2 → ∀ es, es = (orderItems b.distinct 0 b.orders).2.2 → es ≠ [] →
    K (h.set r { b with errors := b.errors ++ es }) (h2.set r { b2 with errors := b1.errors ++ es }) ∧
    G (r, .errors) h2 (h2.set r { b2 with errors := b1.errors ++ es })

theorem heap_set_self {l : List α} {r : Nat} {a : α} (h : l[r]? = some a) : l.set r a = l := by
  apply List.ext_getElem?
  intro k
  by_cases e : r = k
  · subst e
    rw [List.getElem?_set_self (List.getElem?_eq_some_iff.1 h).1, h]
  · rw [List.getElem?_set_ne e]

theorem assign_some {r : Nat} {u : QB → QB} {h : List QB} {b : QB} (hb : h[r]? = some b) : assign r u h = h.set r (u b) := by
  unfold assign
  rw [hb]

section
variable {Q : QB → QB → Prop} {K : List QB → List QB → Prop} {G : Nat × Field → List QB → List QB → Prop} (hK : SameLook Q K G)
include hK

theorem readQB_csim (r : Nat) (fs : List Field) {k : QB → CM α} {k' : QB → M α}
    (hk : ∀ b b', Q b b' → CSim K G (k b') (k' b)) :
    CSim K G (.bind (readQB r fs) k) (M.bind (getQB r) k') := by
  refine ⟨fun p h => ?_⟩
  intro h' hh
  unfold M.bind getQB Priv.st
  dsimp only
  cases hb : h[r]? with
  | none =>
    rw [(hK.heap hh).none r hb]
    exact ⟨rfl, rfl, rfl⟩
  | some b =>
    obtain ⟨b', h1, h2⟩ := (hK.heap hh).some r b hb
    rw [h1]
    exact (hk b b' h2).out p h

/-- Reading once more. -/
theorem reread_follows {r : Nat} {fs : List Field} {k : QB → CM α} {b : QB} {p : Priv} {h : List QB} {res : Out α × St}
    (hb : h[r]? = some b) (hk : ∀ b', Q b b' → Follows K G h (k b' p) res) :
    Follows K G h (CM.bind (readQB r fs) k p) res := by
  intro h' hh
  obtain ⟨b', h1, h2⟩ := (hK.heap hh).some r b hb
  rw [h1]
  exact hk b' h2

theorem appendTouches_follows {h : List QB} {r : Nat} {b : QB} (hb : h[r]? = some b) (p : Priv) (ts : List Builder)
    (hts : ts = (orderItems b.distinct 0 b.orders).2.1) :
    Follows K G h (cappendTouches r ts p) (.ok (), p.st (h.set r { b with touches := b.touches.appendFragments ts })) := by
  unfold cappendTouches
  by_cases e : ts = []
  · rw [if_pos e, e, appendFragments_nil]
    exact ⟨rfl, rfl, heap_set_self hb⟩
  · rw [if_neg e]
    intro h1 hh1
    obtain ⟨b1, e1, q1⟩ := (hK.heap hh1).some r b hb
    rw [e1]
    refine ⟨h.set r { b with touches := b.touches.appendFragments ts }, fun h2 hh2 => ?_⟩
    obtain ⟨b2, e2, q2⟩ := (hK.heap hh2).some r b hb
    rw [assign_some e2, e2]
    exact ⟨(hK.touches hh1 hh2 hb e1 e2 ts hts e).1, (hK.touches hh1 hh2 hb e1 e2 ts hts e).2, rfl, rfl, rfl⟩

theorem pushErrors_follows {h : List QB} {r : Nat} {b : QB} (hb : h[r]? = some b) (p : Priv) (es : List Err)
    (hes : es = (orderItems b.distinct 0 b.orders).2.2) :
    Follows K G h (cpushErrors r es p) (.ok (), p.st (h.set r { b with errors := b.errors ++ es })) := by
  unfold cpushErrors
  by_cases e : es = []
  · rw [if_pos e, e, List.append_nil]
    exact ⟨rfl, rfl, heap_set_self hb⟩
  · rw [if_neg e]
    intro h1 hh1
    obtain ⟨b1, e1, q1⟩ := (hK.heap hh1).some r b hb
    rw [e1]
    refine ⟨h.set r { b with errors := b.errors ++ es }, fun h2 hh2 => ?_⟩
    obtain ⟨b2, e2, q2⟩ := (hK.heap hh2).some r b hb
    rw [assign_some e2, e2]
    exact ⟨(hK.errors hh1 hh2 hb e1 e2 es hes e).1, (hK.errors hh1 hh2 hb e1 e2 es hes e).2, rfl, rfl, rfl⟩

omit hK in
theorem debugLog_csim (L : GoLib) (q : Str) : CSim K G (cdebugLog L q) (debugLog L q) := by
  refine ⟨fun p h => ?_⟩
  unfold cdebugLog debugLog
  change Follows K G h _ (match interpolate L rfc3339 q p.store.args with
    | .ok t => _
    | .err _ => _
    | .panic p => _
    | .oof => _)
  cases interpolate L rfc3339 q p.store.args <;> exact ⟨rfl, rfl, rfl⟩

variable {crec : CRec} {rec : Rec} (hrec : CRecSim K G crec rec)
include hrec

theorem buildOrders_csim (L : GoLib) (fuel : Nat) (ctx : Ctx) (r : Nat) :
    CSim K G (cbuildOrders L crec fuel ctx r) (buildOrders L rec fuel ctx r) := by
  refine ⟨fun p h => ?_⟩
  intro h1 hh1
  unfold buildOrders M.bind getQB modifyQB Priv.st
  dsimp only
  cases hb : h[r]? with
  | none => rw [(hK.heap hh1).none r hb]; exact ⟨rfl, rfl, rfl⟩
  | some b =>
    obtain ⟨b1, e1, q1⟩ := (hK.heap hh1).some r b hb
    rw [e1]
    dsimp only
    rw [hb]
    dsimp only
    show Follows K G h (CM.bind (cappendTouches r (orderItems b1.distinct 0 b1.orders).2.1) (fun _ =>
      CM.bind (cpushErrors r (orderItems b1.distinct 0 b1.orders).2.2) fun _ => _) p) _
    rw [hK.rel.distinct q1, hK.rel.orders q1]
    obtain ⟨items, hi⟩ : ∃ items, items = orderItems b.distinct 0 b.orders := ⟨_, rfl⟩
    rw [← hi]
    have hl := (List.getElem?_eq_some_iff.1 hb).1
    refine (appendTouches_follows hK hb p items.2.1 (by rw [hi])).bind ?_
    refine (pushErrors_follows hK (b := { b with touches := b.touches.appendFragments items.2.1 })
      (List.getElem?_set_self hl) p items.2.2 (by rw [hi])).bind ?_
    have := (buildFragment_csim hrec L fuel ctx
      (((Fragment.F (joinRaw ", ")).withPrefix (lit "ORDER BY")).appendFragments items.1)).out p
      (h.set r { b with touches := b.touches.appendFragments items.2.1, errors := b.errors ++ items.2.2 })
    show Follows K G ((h.set r { b with touches := b.touches.appendFragments items.2.1 }).set r
      { b with touches := b.touches.appendFragments items.2.1, errors := b.errors ++ items.2.2 }) _ _
    rw [List.set_set]
    exact this

theorem buildSelects_csim (L : GoLib) (fuel : Nat) (ctx : Ctx) (r : Nat) :
    CSim K G (cbuildSelects L crec fuel ctx r) (buildSelects L rec fuel ctx r) := by
  refine ⟨fun p h => ?_⟩
  intro h1 hh1
  unfold buildSelects
  cases hb : h[r]? with
  | none =>
    rw [(hK.heap hh1).none r hb]
    have e1 : ∀ f, modifyQB r f (p.st h) = (.panic .nilDereference, p.st h) := fun f => by
      unfold modifyQB Priv.st; dsimp only; rw [hb]
    unfold M.bind
    rw [e1]
    exact ⟨rfl, rfl, rfl⟩
  | some b =>
    obtain ⟨b1, e1, q1⟩ := (hK.heap hh1).some r b hb
    rw [e1]
    obtain ⟨pf, hpf⟩ : ∃ pf, pf = selectPrefix b := ⟨_, rfl⟩
    have em : modifyQB r (fun b =>
        let prefix_ := if b.distinct then lit "SELECT DISTINCT" else lit "SELECT"
        { b with selects := b.selects.withPrefix prefix_ }) (p.st h)
        = (.ok (), p.st (h.set r { b with selects := b.selects.withPrefix pf })) := by
      unfold modifyQB Priv.st; dsimp only; rw [hb, hpf]; rfl
    refine ⟨h.set r { b with selects := b.selects.withPrefix pf }, fun h2 hh2 => ?_⟩
    obtain ⟨b2, e2, q2⟩ := (hK.heap hh2).some r b hb
    rw [assign_some e2, e2]
    have hpf1 : (if b1.distinct then lit "SELECT DISTINCT" else lit "SELECT") = pf := by
      rw [hpf, hK.rel.distinct q1]; rfl
    rw [hpf1]
    have hsel := hK.selects hh2 hb e2
    rw [← hpf] at hsel
    refine ⟨hsel.1, hsel.2, ?_⟩
    have hl := (List.getElem?_eq_some_iff.1 hb).1
    rw [M.bind, em]
    intro h3 hh3
    obtain ⟨b3, e3, q3⟩ := (hK.heap hh3).some r _ (List.getElem?_set_self hl)
    rw [e3]
    have eg : getQB r (p.st (h.set r { b with selects := b.selects.withPrefix pf }))
        = (.ok { b with selects := b.selects.withPrefix pf }, p.st (h.set r { b with selects := b.selects.withPrefix pf })) := by
      unfold getQB Priv.st; dsimp only; rw [List.getElem?_set_self hl]
    dsimp only
    rw [M.bind, eg]
    dsimp only
    show Follows K G _ (CM.bind (cbuildFragment L crec fuel ctx b3.selects) _ p) _
    have : b3.selects = b.selects.withPrefix pf := by
      refine hK.settled q3 ?_
      show (b.selects.withPrefix pf).pre = selectPrefix b
      rw [hpf]; cases b.selects; rfl
    rw [this]
    refine ((buildFragment_csim hrec ..).bind fun sel => readQB_csim hK r _ fun c c' hc => ?_).out p _
    rw [hK.rel.touches hc]
    exact CSim.bind (buildFragment_csim hrec ..) fun t => ite_csim (csim_const _) (csim_const _)

theorem buildInternal_csim (L : GoLib) (fuel : Nat) (ctx : Ctx) (r : Nat) :
    CSim K G (cbuildInternal L crec fuel ctx r) (buildInternal L rec fuel ctx r) := by
  refine ⟨fun p h => ?_⟩
  intro h1 hh1
  unfold buildInternal
  rw [M.bind]
  cases hb : h[r]? with
  | none =>
    have eg : getQB r (p.st h) = (.panic .nilDereference, p.st h) := by unfold getQB Priv.st; dsimp only; rw [hb]
    rw [(hK.heap hh1).none r hb, eg]
    exact ⟨rfl, rfl, rfl⟩
  | some b =>
    have eg : getQB r (p.st h) = (.ok b, p.st h) := by unfold getQB Priv.st; dsimp only; rw [hb]
    obtain ⟨b1, e1, q1⟩ := (hK.heap hh1).some r b hb
    rw [e1, eg]
    show Follows K G h ((if b1.errors.length ≠ 0 then CM.err (anyError b1.errors) else _) p)
      ((if b.errors.length ≠ 0 then M.err (anyError b.errors) else _) (p.st h))
    rw [hK.rel.errors q1]
    by_cases hne : b.errors.length ≠ 0
    · rw [if_pos hne, if_pos hne]; exact ⟨rfl, rfl, rfl⟩
    rw [if_neg hne, if_neg hne]
    refine reread_follows hK hb fun b2 q2 => ?_
    rw [hK.rel.deps q2, M.bind]
    cases hd : b.collectDependencies with
    | err e => exact ⟨rfl, rfl, rfl⟩
    | panic e => exact ⟨rfl, rfl, rfl⟩
    | oof => exact ⟨rfl, rfl, rfl⟩
    | ok dep =>
    refine reread_follows hK hb fun b3 q3 => ?_
    refine CSim.out (m := M.bind (buildCTEs rec ctx b dep) _) ?_ p h
    refine CSim.bind (buildCTEs_csim hrec ctx dep (hK.rel.ctes q3)) fun sq => ?_
    refine readQB_csim hK r _ fun b b' hb => CSim.bind (buildFrom_csim hrec L fuel ctx dep (hK.rel.distinct hb) (hK.rel.tables hb)) fun f => ?_
    refine readQB_csim hK r _ fun b b' hb => ?_
    rw [hK.rel.conditions hb]
    refine CSim.bind (buildFragment_csim hrec ..) fun w => readQB_csim hK r _ fun b b' hb => ?_
    rw [hK.rel.groupbys hb]
    refine CSim.bind (buildFragment_csim hrec ..) fun g => CSim.bind (buildOrders_csim hK hrec ..) fun o => readQB_csim hK r _ fun b b' hb => ?_
    dsimp only
    rw [hK.rel.limit hb, hK.rel.offset hb]
    refine CSim.bind (buildSelects_csim hK hrec ..) fun sel => readQB_csim hK r _ fun b b' hb => ?_
    rw [hK.rel.unions hb]
    refine CSim.bind (ite_csim (CSim.bind (buildUnion_csim hrec ..) fun u => csim_const _) (csim_const _)) fun q => ?_
    refine readQB_csim hK r _ fun b b' hb => ?_
    rw [hK.rel.debug hb]
    exact CSim.bind (ite_csim (debugLog_csim L q) (csim_const _)) fun _ => csim_const _

theorem step_csim (L : GoLib) (fuel : Nat) : CRecSim K G (cstep L crec fuel) (step L rec fuel) := by
  intro ctx t
  cases t with
  | build b =>
    cases b with
    | qb r => exact buildInternal_csim hK hrec ..
    | frag f => exact buildFragment_csim hrec ..
    | column t f => exact buildFragment_csim hrec ..
    | custom p => exact runProg_csim hrec ..
    | _ => exact csim_const _
  | clause es => exact buildClause_csim hrec ..
  | call f args => exact evalCall_csim hrec ..

end

theorem run_csim {Q : QB → QB → Prop} {K : List QB → List QB → Prop} {G : Nat × Field → List QB → List QB → Prop} (hK : SameLook Q K G) (L : GoLib) (n : Nat) :
    CRecSim K G (crun L n) (run L n) := by
  induction n with
  | zero => exact fun _ _ => csim_const _
  | succ n ih => exact step_csim hK ih L n

/-! ## whole builds -/

/-- The same for a whole goroutine: it ends with `a`, the sequential run with memory `hend`. -/
def Ends (K : List QB → List QB → Prop) (G : Nat × Field → List QB → List QB → Prop) : List QB → Th γ → γ → List QB → Prop
  | href, .done a', a, hend => a' = a ∧ hend = href
  | href, .read r _ k, a, hend => ∀ h, K href h → Ends K G href (k h[r]?) a hend
  | href, .write r f u k, a, hend => ∃ href', ∀ h, K href h →
      K href' (assign r u h) ∧ G (r, f) h (assign r u h) ∧ Ends K G href' (k h[r]?.isSome) a hend

theorem Follows.ends {K : List QB → List QB → Prop} {G : Nat × Field → List QB → List QB → Prop} {t : Th (Out α × Priv)} {res : Out α × St} {h : List QB}
    (ht : Follows K G h t res) {g : Out α × Priv → Th γ} {a : γ} {hend : List QB}
    (hg : Ends K G res.2.heap (g (res.1, res.2.priv)) a hend) : Ends K G h (t.bind g) a hend := by
  induction t generalizing h with
  | done a =>
    obtain ⟨h1, h2, h3⟩ := ht
    subst h3
    have : a = (res.1, res.2.priv) := by rw [← h1, ← h2]
    rw [this]
    exact hg
  | read r fs k ih => exact fun h' hK => ih _ (ht h' hK)
  | write r f u k ih =>
    obtain ⟨href', ht⟩ := ht
    exact ⟨href', fun h' hK => ⟨(ht h' hK).1, (ht h' hK).2.1, ih _ (ht h' hK).2.2⟩⟩

/-- A build follows the sequential build. -/
theorem buildThread_ends {Q : QB → QB → Prop} {K : List QB → List QB → Prop} {G : Nat × Field → List QB → List QB → Prop} (hK : SameLook Q K G) (L : GoLib)
    (n : Nat) (b : Builder) (style : Style) (heap : List QB) :
    Ends K G heap (buildThread L n b style)
      ((buildQueryS L n b style heap).1, (buildQueryS L n b style heap).2.log) (buildQueryS L n b style heap).2.heap := by
  unfold buildThread buildQueryS
  cases newContext L with
  | none => exact ⟨rfl, rfl⟩
  | some ctx =>
    refine ((run_csim hK L n ctx (.build b)).out ⟨.new style, [], [], []⟩ heap).ends ?_
    have e : (⟨.new style, [], [], []⟩ : Priv).st heap = St.init style heap := rfl
    rw [e]
    rcases hm : run L n ctx (.build b) (St.init style heap) with ⟨o, s⟩
    simp only [hm]
    cases o <;> exact ⟨rfl, rfl⟩

/-! ## alone -/

theorem heapRel_eq {h h' : List QB} (e : h = h') : HeapRel Eq h h' := by
  subst e
  exact ⟨fun _ h => h, fun _ b h => ⟨b, h, rfl⟩⟩

theorem eq_qbRel : QBRel Eq where
  errors := by rintro b _ rfl; rfl
  deps := by rintro b _ rfl; rfl
  ctes := by rintro b _ rfl; rfl
  distinct := by rintro b _ rfl; rfl
  tables := by rintro b _ rfl; rfl
  conditions := by rintro b _ rfl; rfl
  groupbys := by rintro b _ rfl; rfl
  orders := by rintro b _ rfl; rfl
  limit := by rintro b _ rfl; rfl
  offset := by rintro b _ rfl; rfl
  unions := by rintro b _ rfl; rfl
  debug := by rintro b _ rfl; rfl
  touches := by rintro b _ rfl; rfl
  selects := by rintro b _ rfl p; rfl
  ordersQ := by rintro b _ rfl ts es; rfl
  selectsQ := by rintro b _ rfl p; rfl

theorem eq_sameLook : SameLook Eq Eq fun _ _ _ => True where
  rel := eq_qbRel
  settled := by rintro b _ rfl _; rfl
  heap := heapRel_eq
  selects := by
    rintro h _ r b b' rfl e e'
    rw [e] at e'; cases e'
    exact ⟨rfl, trivial⟩
  touches := by
    rintro h _ _ r b b1 b2 rfl rfl e e1 e2 ts _ _
    rw [e] at e1 e2; cases e1; cases e2
    exact ⟨rfl, trivial⟩
  errors := by
    rintro h _ _ r b b1 b2 rfl rfl e e1 e2 ts _ _
    rw [e] at e1 e2; cases e1; cases e2
    exact ⟨rfl, trivial⟩

/-! ## memory shared by builds that only set prefixes -/

/-- Equal but for the prefix of the SELECT clause; once that is what builds set it to, it stays. -/
structure Settles (b b' : QB) : Prop where
  only : SelectsOnly b b'
  settled : b.selects.pre = selectPrefix b → b'.selects = b.selects

theorem settles_rel : QBRel Settles where
  errors h := selectsOnly_rel.errors h.only
  deps h := selectsOnly_rel.deps h.only
  ctes h := selectsOnly_rel.ctes h.only
  distinct h := selectsOnly_rel.distinct h.only
  tables h := selectsOnly_rel.tables h.only
  conditions h := selectsOnly_rel.conditions h.only
  groupbys h := selectsOnly_rel.groupbys h.only
  orders h := selectsOnly_rel.orders h.only
  limit h := selectsOnly_rel.limit h.only
  offset h := selectsOnly_rel.offset h.only
  unions h := selectsOnly_rel.unions h.only
  debug h := selectsOnly_rel.debug h.only
  touches h := selectsOnly_rel.touches h.only
  selects h := selectsOnly_rel.selects h.only
  ordersQ h ts es := ⟨selectsOnly_rel.ordersQ h.only ts es, h.settled⟩
  selectsQ h p := ⟨selectsOnly_rel.selectsQ h.only p, fun _ => selectsOnly_rel.selects h.only p⟩

/-- Memory as the sequential run sees it, and as it is. -/
structure SteadyMem (h h' : List QB) : Prop where
  rel : HeapRel Settles h h'
  steady : ∀ b ∈ h, SteadyQB b

/-- One prefix is set. -/
def SetsPrefix (f : Nat × Field) (h h' : List QB) : Prop :=
  f.2 = .selectsPrefix ∧ ∃ (r : Nat) (b : QB), h[r]? = some b ∧ h' = h.set r { b with selects := b.selects.withPrefix (selectPrefix b) }

theorem mem_set_steady {h : List QB} {r : Nat} {c : QB} (hs : ∀ b ∈ h, SteadyQB b) (hc : SteadyQB c) :
    ∀ b ∈ h.set r c, SteadyQB b := by
  intro b hb
  rcases List.mem_or_eq_of_mem_set hb with h1 | h1
  · exact hs b h1
  · rw [h1]; exact hc

theorem steady_sameLook : SameLook Settles SteadyMem SetsPrefix where
  rel := settles_rel
  settled h := h.settled
  heap h := h.rel
  selects := by
    intro h h' r b b' hK hb hb'
    obtain ⟨c, hc, hq⟩ := hK.rel.some r b hb
    rw [hb'] at hc; cases hc
    refine ⟨⟨hK.rel.set (settles_rel.selectsQ hq _) r, ?_⟩, rfl, r, b', hb', ?_⟩
    · exact mem_set_steady hK.steady (hK.steady b (List.mem_of_getElem? hb))
    · have : selectPrefix b = selectPrefix b' := by unfold selectPrefix; rw [settles_rel.distinct hq]
      rw [this]
  touches := by
    intro h h1 h2 r b b1 b2 hK _ hb _ _ ts hts hne
    exact absurd (hts.trans (orderItems_steady (hK.steady b (List.mem_of_getElem? hb))).1) hne
  errors := by
    intro h h1 h2 r b b1 b2 hK _ hb _ _ ts hts hne
    exact absurd (hts.trans (orderItems_steady (hK.steady b (List.mem_of_getElem? hb))).2) hne

theorem Settles.refl (b : QB) : Settles b b := ⟨.refl b, fun _ => rfl⟩

theorem steadyMem_refl {h : List QB} (hs : ∀ b ∈ h, SteadyQB b) : SteadyMem h h :=
  ⟨⟨fun _ h => h, fun _ b h => ⟨b, h, .refl b⟩⟩, hs⟩

/-- The other goroutines do not disturb. -/
theorem steadyMem_stable {h h1 h2 : List QB} (hK : SteadyMem h h1) {f : Nat × Field} (hG : SetsPrefix f h1 h2) : SteadyMem h h2 := by
  obtain ⟨-, r, b1, e1, rfl⟩ := hG
  have hl := (List.getElem?_eq_some_iff.1 e1).1
  refine ⟨⟨fun k hk => ?_, fun k b hk => ?_⟩, hK.steady⟩
  · have := hK.rel.none k hk
    rw [List.getElem?_set]
    split
    · rename_i e; subst e; rw [e1] at this; cases this
    · exact this
  · obtain ⟨c, hc, hq⟩ := hK.rel.some k b hk
    by_cases e : r = k
    · subst e
      rw [e1] at hc; cases hc
      refine ⟨_, List.getElem?_set_self hl, ?_, fun hs => ?_⟩
      · exact hq.only.trans ⟨_, rfl⟩
      · have h2 := hq.settled hs
        have h3 : selectPrefix b1 = selectPrefix b := by unfold selectPrefix; rw [settles_rel.distinct hq]
        show b1.selects.withPrefix (selectPrefix b1) = b.selects
        rw [h2, h3, ← hs]
        cases b.selects; rfl
    · exact ⟨c, by rw [List.getElem?_set_ne e]; exact hc, hq⟩

/-! ## schedules -/

/-- Every goroutine ends with the result given for it. -/
def Sys.Tracks (K : List QB → List QB → Prop) (G : Nat × Field → List QB → List QB → Prop) (s : Sys γ) (goal : Nat → γ) : Prop :=
  ∀ i t, s.threads[i]? = some t → ∃ href hend, K href s.heap ∧ Ends K G href t (goal i) hend

theorem Ends.step {K : List QB → List QB → Prop} {G : Nat × Field → List QB → List QB → Prop} {href : List QB} {t : Th γ} {a : γ} {hend h : List QB}
    (ht : Ends K G href t a hend) (hK : K href h) :
    ((t.step h).2 = h ∨ ∃ f, G f h (t.step h).2) ∧ ∃ href', K href' (t.step h).2 ∧ Ends K G href' (t.step h).1 a hend := by
  cases t with
  | done a' => exact ⟨.inl rfl, href, hK, ht⟩
  | read r fs k => exact ⟨.inl rfl, href, hK, ht h hK⟩
  | write r f u k =>
    obtain ⟨href', ht⟩ := ht
    exact ⟨.inr ⟨(r, f), (ht h hK).2.1⟩, href', (ht h hK).1, (ht h hK).2.2⟩

theorem Sys.Tracks.step {K : List QB → List QB → Prop} {G : Nat × Field → List QB → List QB → Prop} (stable : ∀ f h h1 h2, K h h1 → G f h1 h2 → K h h2)
    {s : Sys γ} {goal : Nat → γ} (h : s.Tracks K G goal) (i : Nat) : (s.step i).Tracks K G goal := by
  unfold Sys.step
  cases hi : s.threads[i]? with
  | none => exact h
  | some t =>
    obtain ⟨href, hend, hK, he⟩ := h i t hi
    obtain ⟨hG, href', hK', he'⟩ := he.step hK
    intro j t' hj
    dsimp only at hj ⊢
    by_cases e : i = j
    · subst e
      rw [List.getElem?_set_self (List.getElem?_eq_some_iff.1 hi).1] at hj
      cases hj
      exact ⟨href', hend, hK', he'⟩
    · rw [List.getElem?_set_ne e] at hj
      obtain ⟨hr, hd, hk, hs⟩ := h j t' hj
      refine ⟨hr, hd, ?_, hs⟩
      rcases hG with hG | ⟨f, hG⟩
      · rw [hG]; exact hk
      · exact stable _ _ _ _ hk hG

theorem Sys.Tracks.run {K : List QB → List QB → Prop} {G : Nat × Field → List QB → List QB → Prop} (stable : ∀ f h h1 h2, K h h1 → G f h1 h2 → K h h2)
    {s : Sys γ} {goal : Nat → γ} (h : s.Tracks K G goal) (is : List Nat) : (s.run is).Tracks K G goal := by
  induction is generalizing s with
  | nil => exact h
  | cons i is ih => exact ih (h.step stable i)

theorem Sys.Tracks.result {K : List QB → List QB → Prop} {G : Nat × Field → List QB → List QB → Prop} {s : Sys γ} {goal : Nat → γ} (h : s.Tracks K G goal)
    {i : Nat} {a : γ} (hr : s.result i = some a) : a = goal i := by
  unfold Sys.result at hr
  split at hr
  · rename_i a' hi
    cases hr
    obtain ⟨_, _, _, he⟩ := h i _ hi
    exact he.1
  · cases hr

theorem Sys.step_other (s : Sys γ) {i j : Nat} (h : i ≠ j) : (s.step i).threads[j]? = s.threads[j]? := by
  unfold Sys.step
  split
  · exact List.getElem?_set_ne h
  · rfl

theorem Sys.run_append (s : Sys γ) (is js : List Nat) : s.run (is ++ js) = (s.run is).run js := by
  induction is generalizing s with
  | nil => rfl
  | cons i is ih => exact ih _

/-- A goroutine that gets its turn again and again finishes. -/
theorem Sys.finishes (t : Th γ) : ∀ (s : Sys γ) (i : Nat) (σ : Nat → Nat), s.threads[i]? = some t →
    (∀ n, ∃ m, n ≤ m ∧ σ m = i) → ∃ n a, (s.run ((List.range n).map σ)).result i = some a := by
  have waits : ∀ (s : Sys γ) (i : Nat) (σ : Nat → Nat) (n : Nat), (∀ m, m < n → σ m ≠ i) →
      (s.run ((List.range n).map σ)).threads[i]? = s.threads[i]? := by
    intro s i σ n
    induction n with
    | zero => intro _; rfl
    | succ n ih =>
      intro h
      rw [List.range_succ, List.map_append, Sys.run_append]
      show ((s.run ((List.range n).map σ)).step (σ n)).threads[i]? = _
      rw [Sys.step_other _ (h n (by omega)), ih fun m hm => h m (by omega)]
  have turn : ∀ (s : Sys γ) (i : Nat) (σ : Nat → Nat), (∀ n, ∃ m, n ≤ m ∧ σ m = i) → ∀ t, s.threads[i]? = some t →
      ∃ n h, (s.run ((List.range n).map σ)).threads[i]? = some (t.step h).1 := by
    intro s i σ hσ t ht
    have hex : ∃ m, σ m = i := by obtain ⟨m, _, h⟩ := hσ 0; exact ⟨m, h⟩
    have : ∃ m, σ m = i ∧ ∀ k, k < m → σ k ≠ i := by
      obtain ⟨m, hm⟩ := hex
      induction m using Nat.strongRecOn with
      | ind m ih =>
        by_cases h : ∃ k, k < m ∧ σ k = i
        · obtain ⟨k, h1, h2⟩ := h; exact ih k h1 h2
        · exact ⟨m, hm, fun k h1 h2 => h ⟨k, h1, h2⟩⟩
    obtain ⟨m, hm, hk⟩ := this
    have hw := waits s i σ m hk
    refine ⟨m + 1, (s.run ((List.range m).map σ)).heap, ?_⟩
    rw [List.range_succ, List.map_append, Sys.run_append]
    show ((s.run ((List.range m).map σ)).step (σ m)).threads[i]? = _
    rw [hm]
    rw [ht] at hw
    unfold Sys.step
    rw [hw]
    exact List.getElem?_set_self (List.getElem?_eq_some_iff.1 hw).1
  have later : ∀ (σ : Nat → Nat) (i k : Nat), (∀ n, ∃ m, n ≤ m ∧ σ m = i) → ∀ n, ∃ m, n ≤ m ∧ σ (k + m) = i := by
    intro σ i k h n
    obtain ⟨m, h1, h2⟩ := h (k + n)
    exact ⟨m - k, by omega, by rw [← h2]; congr 1; omega⟩
  have join : ∀ (s : Sys γ) (σ : Nat → Nat) (k n : Nat),
      (s.run ((List.range k).map σ)).run ((List.range n).map fun m => σ (k + m)) = s.run ((List.range (k + n)).map σ) := by
    intro s σ k n
    rw [List.range_add, List.map_append, Sys.run_append, List.map_map]
    rfl
  induction t with
  | done a =>
    intro s i σ ht _
    refine ⟨0, a, ?_⟩
    show s.result i = _
    unfold Sys.result
    rw [ht]
  | read r fs k ih =>
    intro s i σ ht hσ
    obtain ⟨n, h, hn⟩ := turn s i σ hσ _ ht
    obtain ⟨n', a, h'⟩ := ih _ _ i _ hn (later σ i n hσ)
    rw [join] at h'
    exact ⟨_, a, h'⟩
  | write r f u k ih =>
    intro s i σ ht hσ
    obtain ⟨n, h, hn⟩ := turn s i σ hσ _ ht
    obtain ⟨n', a, h'⟩ := ih _ _ i _ hn (later σ i n hσ)
    rw [join] at h'
    exact ⟨_, a, h'⟩

end Sqlf
