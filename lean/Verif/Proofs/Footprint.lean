import Verif.Spec.Threads
import Verif.Proofs.Threads
import Verif.Proofs.HeapSim
/-!
# The memory a build accesses

A build accesses only query builders it refers to, directly or through others.
-/

namespace Sqlf

open Spec

/-- The builders of a query builder refer to query builders in `S`. -/
def QBIn (S : Nat → Prop) (b : QB) : Prop := ∀ c ∈ partsOf b, RefsIn S c

/-- Accesses only query builders in `S`. -/
def AccessIn (S : Nat → Prop) : Th α → Prop
  | .done _ => True
  | .read r _ k => S r ∧ ∀ o : Option QB, (∀ b, o = some b → QBIn S b) → AccessIn S (k o)
  | .write r _ u k => S r ∧ (∀ b, QBIn S b → QBIn S (u b)) ∧ ∀ ok, AccessIn S (k ok)

theorem AccessIn.bind {S : Nat → Prop} {t : Th α} {g : α → Th β} (ht : AccessIn S t) (hg : ∀ a, AccessIn S (g a)) :
    AccessIn S (t.bind g) := by
  induction t with
  | done a => exact hg a
  | read r fs k ih => exact ⟨ht.1, fun o ho => ih o (ht.2 o ho)⟩
  | write r f u k ih => exact ⟨ht.1, ht.2.1, fun ok => ih ok (ht.2.2 ok)⟩

def CIn (S : Nat → Prop) (c : CM α) : Prop := ∀ p, AccessIn S (c p)

/-- The functions and fragments of a context refer to query builders in `S`. -/
structure CtxIn (S : Nat → Prop) (ctx : Ctx) : Prop where
  fn : ∀ name f, ctx.fn name = some f → RefsInB S f.body
  frame : ∀ fr, ctx.frame = some fr → ∀ b ∈ fr.frags, RefsIn S b

def TaskIn (S : Nat → Prop) : Task → Prop
  | .build b => RefsIn S b
  | .clause _ => True
  | .call f _ => RefsInB S f.body

def RecIn (S : Nat → Prop) (rec : CRec) : Prop := ∀ ctx t, CtxIn S ctx → TaskIn S t → CIn S (rec ctx t)

theorem refsInL_iff {S : Nat → Prop} (bs : List Builder) : RefsInL S bs ↔ ∀ b ∈ bs, RefsIn S b := by
  induction bs with
  | nil => simp [RefsInL]
  | cons b bs ih => simp [RefsInL, ih]

theorem refsInF_iff {S : Nat → Prop} (f : Fragment) : RefsInF S f ↔ ∀ b ∈ f.frags, RefsIn S b := by
  cases f
  exact refsInL_iff _

section
variable {S : Nat → Prop}

theorem in_const (o : Out α) : CIn S (fun p => .done (o, p)) := fun _ => trivial

theorem CIn.after {c : CM α} {k : Out α → CM β} (h : CIn S c) (hk : ∀ o, CIn S (k o)) : CIn S (c.after k) :=
  fun p => (h p).bind fun r => hk r.1 r.2

theorem CIn.bind {c : CM α} {k : α → CM β} (h : CIn S c) (hk : ∀ a, CIn S (k a)) : CIn S (c.bind k) := by
  refine h.after fun o => ?_
  cases o with
  | ok a => exact hk a
  | err e => exact in_const _
  | panic e => exact in_const _
  | oof => exact in_const _

theorem CIn.wrapErr {c : CM α} (w : Str) (h : CIn S c) : CIn S (.wrapErr w c) := by
  refine h.after fun o => ?_
  cases o <;> exact in_const _

theorem safeCall_in {c : CM Str} (h : CIn S c) : CIn S (csafeCall c) := by
  refine h.after fun o => ?_
  cases o <;> exact in_const _

theorem ite_in {P : Prop} [Decidable P] {c c' : CM α} (h : CIn S c) (h' : CIn S c') : CIn S (if P then c else c') := by
  split <;> assumption

theorem collectM_in {f : α → CM (Option Str)} {l : List α} (h : ∀ a ∈ l, CIn S (f a)) : CIn S (ccollectM f l) := by
  induction l with
  | nil => exact in_const _
  | cons a l ih =>
    exact (h a (by simp)).bind fun o => (ih fun a ha => h a (by simp [ha])).bind fun r => in_const _

theorem commitArg_in (v : Val) : CIn S (ccommitArg v) := by
  intro p
  unfold ccommitArg
  cases p.store.commit v <;> trivial

theorem argBuild_in (fr : Frame) (i : Int) : CIn S (cargBuild fr i) := by
  unfold cargBuild
  split
  · exact in_const _
  · refine CIn.bind (fun _ => trivial) fun _ => ?_
    split
    · exact commitArg_in _
    · exact in_const _

theorem mustFragment_in {ctx : Ctx} (hc : CtxIn S ctx) {k : Frame → CM α}
    (hk : ∀ fr, (∀ b ∈ fr.frags, RefsIn S b) → CIn S (k fr)) : CIn S (.bind (cmustFragment ctx) k) := by
  unfold cmustFragment
  cases h : ctx.frame with
  | none => exact fun _ => trivial
  | some fr => exact hk fr (hc.frame fr h)

theorem ctxIn_fragment {ctx : Ctx} (hc : CtxIn S ctx) {f : Fragment} (hf : ∀ b ∈ f.frags, RefsIn S b) :
    CtxIn S (ctx.withFragment f) := by
  refine ⟨hc.fn, fun fr h => ?_⟩
  cases h
  exact hf

theorem ctxIn_empty : CtxIn S newEmptyContext.withNilFragment := by
  refine ⟨fun name f h => ?_, fun fr h => ?_⟩
  · cases h
  · cases h; simp

theorem lookupFn_in {m : List (Str × FuncInfo)} (h : ∀ e ∈ m, RefsInB S e.2.body) {name : Str} {f : FuncInfo}
    (hf : lookupFn m name = some f) : RefsInB S f.body := by
  unfold lookupFn at hf
  cases hx : m.find? (fun x => x.1 = name) with
  | none => rw [hx] at hf; cases hf
  | some e =>
    rw [hx] at hf
    cases hf
    exact h e (List.mem_of_find?_eq_some hx)

theorem addValueFuncs_in (L : GoLib) {fm : FuncMap} (hm : RefsInM S fm) : ∀ {out m : List (Str × FuncInfo)},
    (∀ e ∈ out, RefsInB S e.2.body) → addValueFuncs L out fm = .ok m → ∀ e ∈ m, RefsInB S e.2.body := by
  induction fm with
  | nil =>
    intro out m ho h
    unfold addValueFuncs at h
    cases h
    exact ho
  | cons p fm ih =>
    intro out m ho h
    obtain ⟨name, v⟩ := p
    have h1 : RefsInV S v := hm.1
    unfold addValueFuncs at h
    split at h
    · cases h
    · cases v with
      | notFunc => cases h
      | func ins var outs body =>
        dsimp only at h
        split at h
        · cases h
        · split at h
          · cases h
          · refine ih hm.2 (fun e he => ?_) h
            rcases List.mem_append.1 he with he | he
            · exact ho e he
            · rw [List.mem_singleton.1 he]
              exact h1

theorem ctxIn_funcs (L : GoLib) {ctx ctx' : Ctx} (hc : CtxIn S ctx) {fm : FuncMap} (hm : RefsInM S fm)
    (h : contextWithFuncs L ctx fm = .ok ctx') : CtxIn S ctx' := by
  unfold contextWithFuncs at h
  cases hx : addValueFuncs L [] fm with
  | error e => rw [hx] at h; cases h
  | ok m =>
    rw [hx] at h
    cases h
    refine ⟨fun name f hf => ?_, hc.frame⟩
    unfold Ctx.fn at hf
    simp only [List.findSome?_cons] at hf
    cases hl : lookupFn m name with
    | some g => rw [hl] at hf; cases hf; exact lookupFn_in (addValueFuncs_in L hm (by simp) hx) hl
    | none => rw [hl] at hf; exact hc.fn name f hf

theorem readQB_in {r : Nat} (hr : S r) (fs : List Field) {k : QB → CM α} (hk : ∀ b, QBIn S b → CIn S (k b)) :
    CIn S (.bind (readQB r fs) k) := by
  intro p
  refine ⟨hr, fun o ho => ?_⟩
  cases o with
  | none => trivial
  | some b => exact hk b (ho b rfl) p

theorem writeQB_in {r : Nat} (hr : S r) (f : Field) {u : QB → QB} (hu : ∀ b, QBIn S b → QBIn S (u b)) :
    CIn S (writeQB r f u) := by
  intro p
  refine ⟨hr, hu, fun ok => ?_⟩
  cases ok <;> trivial

/-! ## the parts of a query builder -/

theorem mem_partsOf {b : QB} {c : Builder} : c ∈ partsOf b ↔ c ∈ b.ctes.map (·.builder) ∨ c ∈ b.tableList.map rowBuilder ∨
    c ∈ b.conditions.frags ∨ c ∈ b.groupbys.frags ∨ c ∈ b.orders.map (·.column) ∨ c ∈ b.selects.frags ∨
    c ∈ b.touches.frags ∨ c ∈ b.unions := by
  simp only [partsOf, List.mem_append, or_assoc]

theorem QBIn.cte {b : QB} (h : QBIn S b) {c : Cte} (hc : c ∈ b.ctes) : RefsIn S c.builder :=
  h _ (mem_partsOf.2 (.inl (List.mem_map_of_mem hc)))
theorem QBIn.row {b : QB} (h : QBIn S b) {t : FromTable} (ht : t ∈ b.tableList) : RefsIn S (rowBuilder t) :=
  h _ (mem_partsOf.2 (.inr (.inl (List.mem_map_of_mem ht))))
theorem QBIn.conditions {b : QB} (h : QBIn S b) : ∀ c ∈ b.conditions.frags, RefsIn S c :=
  fun _ hc => h _ (mem_partsOf.2 (.inr (.inr (.inl hc))))
theorem QBIn.groupbys {b : QB} (h : QBIn S b) : ∀ c ∈ b.groupbys.frags, RefsIn S c :=
  fun _ hc => h _ (mem_partsOf.2 (.inr (.inr (.inr (.inl hc)))))
theorem QBIn.order {b : QB} (h : QBIn S b) {o : OrderItem} (ho : o ∈ b.orders) : RefsIn S o.column :=
  h _ (mem_partsOf.2 (.inr (.inr (.inr (.inr (.inl (List.mem_map_of_mem ho)))))))
theorem QBIn.selects {b : QB} (h : QBIn S b) : ∀ c ∈ b.selects.frags, RefsIn S c :=
  fun _ hc => h _ (mem_partsOf.2 (.inr (.inr (.inr (.inr (.inr (.inl hc)))))))
theorem QBIn.touches {b : QB} (h : QBIn S b) : ∀ c ∈ b.touches.frags, RefsIn S c :=
  fun _ hc => h _ (mem_partsOf.2 (.inr (.inr (.inr (.inr (.inr (.inr (.inl hc))))))))
theorem QBIn.union {b : QB} (h : QBIn S b) : ∀ c ∈ b.unions, RefsIn S c :=
  fun _ hc => h _ (mem_partsOf.2 (.inr (.inr (.inr (.inr (.inr (.inr (.inr hc))))))))

theorem qbIn_prefix {b : QB} (h : QBIn S b) (p : Str) : QBIn S { b with selects := b.selects.withPrefix p } := by
  intro c hc
  refine h c ?_
  rw [mem_partsOf] at hc ⊢
  dsimp only at hc
  rw [frags_withPrefix] at hc
  exact hc

theorem qbIn_errors {b : QB} (h : QBIn S b) (es : List Err) : QBIn S { b with errors := es } := h

theorem frags_append (f : Fragment) (ts : List Builder) : (f.appendFragments ts).frags = f.frags ++ ts := by cases f; rfl

theorem qbIn_touches {b b' : QB} (h : QBIn S b) (h' : QBIn S b') {ts : List Builder} (ht : ∀ c ∈ ts, RefsIn S c) :
    QBIn S { b' with touches := b.touches.appendFragments ts } := by
  intro c hc
  rw [mem_partsOf] at hc
  dsimp only at hc
  rw [frags_append, List.mem_append] at hc
  rcases hc with hc | hc | hc | hc | hc | hc | (hc | hc) | hc
  · exact h' c (mem_partsOf.2 (.inl hc))
  · exact h' c (mem_partsOf.2 (.inr (.inl hc)))
  · exact h'.conditions c hc
  · exact h'.groupbys c hc
  · exact h' c (mem_partsOf.2 (.inr (.inr (.inr (.inr (.inl hc))))))
  · exact h'.selects c hc
  · exact h.touches c hc
  · exact ht c hc
  · exact h'.union c hc

theorem orderItems_in {d : Bool} {items : List OrderItem} (h : ∀ o ∈ items, RefsIn S o.column) : ∀ i,
    (∀ c ∈ (orderItems d i items).1, RefsIn S c) ∧ ∀ c ∈ (orderItems d i items).2.1, RefsIn S c := by
  induction items with
  | nil => intro i; simp [orderItems]
  | cons o items ih =>
    intro i
    have ih := ih (fun o ho => h o (by simp [ho])) (i + 1)
    have ho := h o (by simp)
    have hF : ∀ t, RefsIn S (.frag (.F t)) := fun t => by simp [Fragment.F, RefsIn, RefsInF, RefsInL]
    have hFf : ∀ t, RefsIn S (.frag (.Ff t [o.column])) := fun t => by
      simp [Fragment.Ff, RefsIn, RefsInF, RefsInL, ho]
    unfold orderItems
    dsimp only
    cases orderNames[o.order]? with
    | none => exact ih
    | some name =>
      dsimp only
      split
      · refine ⟨fun c hc => ?_, ih.2⟩
        rcases List.mem_cons.1 hc with hc | hc
        · rw [hc]; exact hFf _
        · exact ih.1 c hc
      · refine ⟨fun c hc => ?_, fun c hc => ?_⟩
        · rcases List.mem_cons.1 hc with hc | hc
          · rw [hc]; exact hF _
          · exact ih.1 c hc
        · rcases List.mem_cons.1 hc with hc | hc
          · rw [hc]; exact hFf _
          · exact ih.2 c hc

/-! ## the evaluator -/

theorem appendTouches_in {r : Nat} (hr : S r) {ts : List Builder} (h : ∀ c ∈ ts, RefsIn S c) : CIn S (cappendTouches r ts) :=
  ite_in (in_const _) (readQB_in hr _ fun _ hb => writeQB_in hr _ fun _ hb' => qbIn_touches hb hb' h)

theorem pushErrors_in {r : Nat} (hr : S r) (es : List Err) : CIn S (cpushErrors r es) :=
  ite_in (in_const _) (readQB_in hr _ fun _ _ => writeQB_in hr _ fun _ hb' => qbIn_errors hb' _)

theorem debugLog_in (L : GoLib) (q : Str) : CIn S (cdebugLog L q) := by
  intro p
  unfold cdebugLog
  split <;> trivial

variable {rec : CRec} (hrec : RecIn S rec)
include hrec

theorem fragmentBuild_in {ctx : Ctx} (hc : CtxIn S ctx) {fr : Frame} (hf : ∀ b ∈ fr.frags, RefsIn S b) (i : Int) :
    CIn S (cfragmentBuild rec ctx fr i) := by
  unfold cfragmentBuild
  split
  · exact in_const _
  · refine CIn.bind (fun _ => trivial) fun _ => ?_
    split
    · rename_i b hb
      exact hrec _ _ hc (hf b (List.mem_of_getElem? hb))
    · exact in_const _

theorem build_branch_in {ctx : Ctx} (hc : CtxIn S ctx) {b : Builder} (hb : RefsIn S b) {k : Except Err Str → CM Str}
    (hk : ∀ r, CIn S (k r)) :
    CIn S (.after (rec ctx (.build b)) fun
      | .ok t => k (.ok t)
      | .err e => k (.error e)
      | .panic q => .panic q
      | .oof => .oof) := by
  refine (hrec ctx (.build b) hc hb).after fun o => ?_
  cases o with
  | ok a => exact hk _
  | err e => exact hk _
  | panic e => exact in_const _
  | oof => exact in_const _

omit hrec in
theorem newContext_in {L : GoLib} {ctx : Ctx} (h : newContext L = some ctx) : CtxIn S ctx := by
  unfold newContext at h
  cases hx : addValueFuncs L [] builtInFuncs with
  | error e => rw [hx] at h; cases h
  | ok m =>
    rw [hx] at h
    cases h
    refine ⟨fun name f hf => ?_, fun fr h => by cases h⟩
    unfold Ctx.fn at hf
    simp only [List.findSome?_cons, List.findSome?_nil] at hf
    cases hl : lookupFn m name with
    | some g =>
      rw [hl] at hf; cases hf
      exact lookupFn_in (addValueFuncs_in L (by simp [builtInFuncs, RefsInM, RefsInE, RefsInV, RefsInB]) (by simp) hx) hl
    | none => rw [hl] at hf; cases hf

theorem runProg_in (L : GoLib) {ctx : Ctx} (hc : CtxIn S ctx) : ∀ p, RefsInP S p → CIn S (crunProg L rec ctx p)
  | .ret _, _ => in_const _
  | .fail _, _ => in_const _
  | .panic _ _, _ => in_const _
  | .commit v k, h => by
    unfold crunProg; exact (commitArg_in v).bind fun t => runProg_in L hc (k t) (h t)
  | .args k, h => by
    unfold crunProg
    exact fun p => runProg_in L hc (k p.store.args) (h _) p
  | .build b k, h => by
    unfold crunProg
    exact build_branch_in hrec hc h.1 fun r => runProg_in L hc (k r) (h.2 r)
  | .buildWith fm b k, h => by
    unfold crunProg
    cases hx : contextWithFuncs L ctx fm with
    | error e => exact runProg_in L hc (k _) (h.2.2 _)
    | ok ctx' => exact build_branch_in hrec (ctxIn_funcs L hc h.1 hx) h.2.1 fun r => runProg_in L hc (k r) (h.2.2 r)
  | .query style b k, h => by
    unfold crunProg
    cases hx : newContext L with
    | none => exact in_const _
    | some own =>
      refine CIn.bind (fun p => ?_) fun r => runProg_in L hc (k r) (h.2 r)
      unfold cwithOwnStore
      refine AccessIn.bind (hrec own (.build b) (newContext_in hx) h.1 _) fun r => ?_
      dsimp only
      split <;> trivial

theorem joinCompatible_in {f : FuncInfo} (hf : RefsInB S f.body) : CIn S (cjoinCompatible rec f) := by
  intro p
  unfold cjoinCompatible
  split
  · trivial
  · refine AccessIn.bind (hrec _ (.call f [.int 0]) ctxIn_empty hf _) fun r => ?_
    dsimp only
    split <;> trivial

theorem joinCheck_in {ctx : Ctx} (hc : CtxIn S ctx) (es : List Expr) : CIn S (cjoinCheck rec ctx es) := by
  induction es with
  | nil => exact in_const _
  | cons e es ih =>
    cases e with
    | func name =>
      unfold cjoinCheck
      cases hf : ctx.fn name with
      | none => exact in_const _
      | some f =>
        refine CIn.bind (joinCompatible_in hrec (hc.fn name f hf)) fun ok => ?_
        exact ite_in (ih.bind fun n => in_const _) (in_const _)
    | _ => unfold cjoinCheck; exact ih

theorem joinLoop_in {ctx : Ctx} (hc : CtxIn S ctx) (es : List Expr) (sep : Str) (from_ to : Int) (n : Nat) (i : Int)
    (acc : Str) : CIn S (cjoinLoop rec ctx es sep from_ to n i acc) := by
  induction n generalizing i acc with
  | zero => exact in_const _
  | succ n ih =>
    unfold cjoinLoop
    refine (hrec ctx (.clause _) hc trivial).after fun o => ?_
    cases o with
    | ok a => exact ite_in (in_const _) (ih _ _)
    | err e => exact ite_in (ite_in (in_const _) (in_const _)) (in_const _)
    | panic p => exact in_const _
    | oof => exact in_const _

theorem funcJoin_in (L : GoLib) (fuel : Nat) {ctx : Ctx} (hc : CtxIn S ctx) (tmpl sep : Str) (is : List Int) :
    CIn S (cfuncJoin L rec fuel ctx tmpl sep is) := by
  unfold cfuncJoin
  refine ite_in (in_const _) (ite_in (in_const _) ?_)
  cases parse L tmpl with
  | error e => exact in_const _
  | ok es =>
    refine CIn.bind (joinCheck_in hrec hc _) fun n => ?_
    exact ite_in (in_const _) (joinLoop_in hrec hc _ _ _ _ _ _ _)

theorem callBody_in (L : GoLib) (fuel : Nat) {ctx : Ctx} (hc : CtxIn S ctx) {body : Body} (hb : RefsInB S body)
    (vs : List ArgVal) : CIn S (ccallBody L rec fuel ctx body vs) := by
  cases body with
  | builtin b =>
    cases b with
    | arg => exact mustFragment_in hc fun fr _ => argBuild_in fr _
    | fragment => exact mustFragment_in hc fun fr h => fragmentBuild_in hrec hc h _
    | join => exact funcJoin_in hrec L fuel hc _ _ _
  | custom p => exact runProg_in hrec L hc _ (hb vs)

theorem evalCall_in (L : GoLib) (fuel : Nat) {ctx : Ctx} (hc : CtxIn S ctx) {f : FuncInfo} (hf : RefsInB S f.body)
    (args : List CallArg) : CIn S (cevalCall L rec fuel ctx f args) := by
  unfold cevalCall
  refine ite_in (in_const _) ?_
  dsimp only
  cases evalArgs (f.paramTypes args.length) args with
  | err e => exact in_const _
  | panic e => exact in_const _
  | oof => exact in_const _
  | ok vs =>
    refine CIn.wrapErr _ (safeCall_in (ite_in ?_ (in_const _)))
    exact (callBody_in hrec L fuel hc hf _).bind fun s => in_const _

theorem evalExpr_in (L : GoLib) (fuel : Nat) {ctx : Ctx} (hc : CtxIn S ctx) (e : Expr) :
    CIn S (cevalExpr L rec fuel ctx e) := by
  cases e with
  | plain t => exact in_const _
  | bindVar s i =>
    refine mustFragment_in hc fun fr _ => ?_
    cases position i fr.args.length with
    | none => exact in_const _
    | some k => exact argBuild_in fr _
  | call name args =>
    show CIn S (cevalFunction L rec fuel ctx name args)
    unfold cevalFunction
    cases hf : ctx.fn name with
    | none => exact in_const _
    | some f => exact evalCall_in hrec L fuel hc (hc.fn name f hf) _
  | func name => exact in_const _

theorem buildClause_in (L : GoLib) (fuel : Nat) {ctx : Ctx} (hc : CtxIn S ctx) (es : List Expr) :
    CIn S (cbuildClause L rec fuel ctx es) := by
  induction es with
  | nil => exact in_const _
  | cons e es ih => exact (evalExpr_in hrec L fuel hc e).bind fun s => ih.bind fun t => in_const _

theorem buildFragment_in (L : GoLib) (fuel : Nat) {ctx : Ctx} (hc : CtxIn S ctx) {f : Fragment}
    (hf : ∀ b ∈ f.frags, RefsIn S b) : CIn S (cbuildFragment L rec fuel ctx f) := by
  intro p
  refine AccessIn.bind ?_ fun r => trivial
  have : CIn S (cbuildBody L rec fuel (ctx.withFragment f) f) := by
    unfold cbuildBody
    cases parse L f.raw with
    | error e => exact in_const _
    | ok es =>
      refine CIn.bind (CIn.wrapErr _ (buildClause_in hrec L fuel (ctxIn_fragment hc hf) _)) fun body p => ?_
      show AccessIn S (match ccheckUsage { args := f.args, frags := f.frags } p with
        | some e => Th.done (Out.err (Err.wrap f.raw e), p)
        | none => Th.done (Out.ok (decorate f.pre f.suf body), p))
      cases ccheckUsage { args := f.args, frags := f.frags } p <;> trivial
  exact this _

theorem buildOrders_in (L : GoLib) (fuel : Nat) {ctx : Ctx} (hc : CtxIn S ctx) {r : Nat} (hr : S r) :
    CIn S (cbuildOrders L rec fuel ctx r) := by
  refine readQB_in hr _ fun b hb => ?_
  have h := orderItems_in (d := b.distinct) (fun o ho => hb.order ho) 0
  refine CIn.bind (appendTouches_in hr h.2) fun _ => CIn.bind (pushErrors_in hr _) fun _ => ?_
  refine buildFragment_in hrec L fuel hc fun c hx => h.1 c ?_
  rw [frags_append] at hx
  exact (List.mem_append.1 hx).resolve_left (by intro h; cases h)

theorem buildSelects_in (L : GoLib) (fuel : Nat) {ctx : Ctx} (hc : CtxIn S ctx) {r : Nat} (hr : S r) :
    CIn S (cbuildSelects L rec fuel ctx r) := by
  refine readQB_in hr _ fun b _ => CIn.bind (writeQB_in hr _ fun _ hb => qbIn_prefix hb _) fun _ => ?_
  refine readQB_in hr _ fun b hb => CIn.bind (buildFragment_in hrec L fuel hc hb.selects) fun sel => ?_
  refine readQB_in hr _ fun b hb => CIn.bind (buildFragment_in hrec L fuel hc hb.touches) fun t => ?_
  exact ite_in (in_const _) (in_const _)

theorem buildInternal_in (L : GoLib) (fuel : Nat) {ctx : Ctx} (hc : CtxIn S ctx) {r : Nat} (hr : S r) :
    CIn S (cbuildInternal L rec fuel ctx r) := by
  unfold cbuildInternal
  refine readQB_in hr _ fun b _ => ite_in (in_const _) (readQB_in hr _ fun b _ => CIn.bind (in_const _) fun dep => ?_)
  refine readQB_in hr _ fun b hb => CIn.bind ?_ fun sq => readQB_in hr _ fun b hb => CIn.bind ?_ fun fr => ?_
  · refine CIn.bind (collectM_in fun c h => ite_in (in_const _) ?_) fun _ => in_const _
    exact CIn.bind (CIn.wrapErr _ (hrec _ _ hc (hb.cte h))) fun _ => in_const _
  · refine CIn.bind (collectM_in fun t h => ite_in (in_const _) (CIn.bind (CIn.wrapErr _ ?_) fun _ => in_const _)) fun _ => in_const _
    have := hb.row h
    unfold rowBuilder at this
    cases hf : t.fragment with
    | none => exact in_const _
    | some f => rw [hf] at this; exact buildFragment_in hrec L fuel hc ((refsInF_iff f).1 this)
  refine readQB_in hr _ fun b hb => CIn.bind (buildFragment_in hrec L fuel hc hb.conditions) fun w => ?_
  refine readQB_in hr _ fun b hb => CIn.bind (buildFragment_in hrec L fuel hc hb.groupbys) fun g => ?_
  refine CIn.bind (buildOrders_in hrec L fuel hc hr) fun o => readQB_in hr _ fun b _ => ?_
  refine CIn.bind (buildSelects_in hrec L fuel hc hr) fun sel => readQB_in hr _ fun b hb => ?_
  refine CIn.bind (ite_in (CIn.bind ?_ fun u => in_const _) (in_const _)) fun q => readQB_in hr _ fun b _ => ?_
  · exact CIn.bind (collectM_in fun u h => CIn.bind (hrec _ _ hc (hb.union u h)) fun _ => in_const _) fun _ => in_const _
  · exact CIn.bind (ite_in (debugLog_in L q) (in_const _)) fun _ => in_const _

theorem step_in (L : GoLib) (fuel : Nat) : RecIn S (cstep L rec fuel) := by
  intro ctx t hc ht
  cases t with
  | build b =>
    cases b with
    | qb r => exact buildInternal_in hrec L fuel hc ht
    | frag f => exact buildFragment_in hrec L fuel hc ((refsInF_iff f).1 ht)
    | column t f => exact buildFragment_in hrec L fuel hc ((refsInF_iff f).1 ht)
    | custom p => exact runProg_in hrec L hc p ht
    | _ => exact in_const _
  | clause es => exact buildClause_in hrec L fuel hc es
  | call f args => exact evalCall_in hrec L fuel hc ht args

end

theorem run_in {S : Nat → Prop} (L : GoLib) (n : Nat) : RecIn S (crun L n) := by
  induction n with
  | zero => exact fun _ _ _ _ => in_const _
  | succ n ih => exact step_in ih L n

/-- A build accesses only what it refers to. -/
theorem buildThread_in {S : Nat → Prop} (L : GoLib) (n : Nat) {b : Builder} (hb : RefsIn S b) (style : Style) :
    AccessIn S (buildThread L n b style) := by
  unfold buildThread
  cases h : newContext L with
  | none => trivial
  | some ctx =>
    refine AccessIn.bind (run_in L n ctx (.build b) (newContext_in h) hb _) fun r => ?_
    cases r.1 <;> trivial

end Sqlf
