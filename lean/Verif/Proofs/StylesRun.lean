import Verif.Proofs.Styles
import Verif.Proofs.GoEqual
import Verif.Proofs.Api
/-!
# A Question build and a Dollar build in lockstep, continued

`tr`: whether this is a build with a context of its own, whose style is the same in both builds: the trial call of a
function by `#join`, or `BuildQuery` in user code.
-/

namespace Sqlf

open Spec

structure InfoS (ns : List Nat) (f f' : FuncInfo) : Prop where
  name : f.name = f'.name
  ins : f.ins = f'.ins
  variadic : f.variadic = f'.variadic
  outs : f.outs = f'.outs
  body : StyleFreeBody ns f.body f'.body

abbrev LayerS (ns : List Nat) : List (Str × FuncInfo) → List (Str × FuncInfo) → Prop :=
  Pointwise fun p p' => p.1 = p'.1 ∧ InfoS ns p.2 p'.2

structure FrameS (ns : List Nat) (f f' : Frame) : Prop where
  args : f.args = f'.args
  hash : ∀ v ∈ f.args, ¬ Unhashable v
  frags : Pointwise (StyleFree ns) f.frags f'.frags

def FrameS? (ns : List Nat) : Option Frame → Option Frame → Prop
  | none, none => True
  | some f, some f' => FrameS ns f f'
  | _, _ => False

structure CtxS (ns : List Nat) (c c' : Ctx) : Prop where
  funcs : Pointwise (LayerS ns) c.funcs c'.funcs
  frame : FrameS? ns c.frame c'.frame

def TaskS (ns : List Nat) : Task → Task → Prop
  | .build b, .build b' => StyleFree ns b b'
  | .clause es, .clause es' => es = es'
  | .call f as, .call f' as' => InfoS ns f f' ∧ as = as'
  | _, _ => False

theorem InfoS.mono {ns ns' : List Nat} {f f' : FuncInfo} (h : InfoS ns f f') (hn : ns <+: ns') : InfoS ns' f f' :=
  ⟨h.name, h.ins, h.variadic, h.outs, styleFreeBody_mono hn _ _ h.body⟩

theorem CtxS.mono {ns ns' : List Nat} {c c' : Ctx} (h : CtxS ns c c') (hn : ns <+: ns') : CtxS ns' c c' := by
  refine ⟨Pointwise.mono h.funcs fun _ _ h => Pointwise.mono h fun _ _ h => ⟨h.1, h.2.mono hn⟩, ?_⟩
  have := h.frame
  cases hf : c.frame <;> cases hf' : c'.frame <;> rw [hf, hf'] at this <;> simp only [FrameS?] at this ⊢
  exact ⟨this.args, this.hash, Pointwise.mono this.frags fun _ _ h => styleFree_mono hn _ _ h⟩

/-- The query builder has blind parts and does not log. -/
structure QuietQB (b : QB) : Prop where
  ctes : ∀ c ∈ b.ctes, BlindToStyle c.builder
  cells : ∀ t ∈ b.cells, BlindToStyle (rowBuilder t)
  selects : StyleFreeF [] b.selects b.selects
  touches : StyleFreeF [] b.touches b.touches
  conditions : StyleFreeF [] b.conditions b.conditions
  orders : ∀ o ∈ b.orders, BlindToStyle o.column
  groupbys : StyleFreeF [] b.groupbys b.groupbys
  unions : ∀ u ∈ b.unions, BlindToStyle u
  quiet : b.debug = false

def StoresS (tr : Bool) (ns : List Nat) (s s' : Store) : Prop :=
  if tr then s = s' else s.isDollar = false ∧ commitAll (Store.new dollar) s.args = some (ns.map dollarMark, s')

structure StS (tr : Bool) (ns : List Nat) (s s' : St) : Prop where
  store : StoresS tr ns s.store s'.store
  usedA : s.usedA = s'.usedA
  usedF : s.usedF = s'.usedF
  heap : s.heap = s'.heap
  good : ∀ b ∈ s.heap, QuietQB b
  log : s.log = s'.log

def MS (tr : Bool) (ns : List Nat) (Q : List Nat → α → β → Prop) (m : M α) (m' : M β) : Prop :=
  ∀ ns1, ns <+: ns1 → ∀ s s', StS tr ns1 s s' → ∃ ns2, ns1 <+: ns2 ∧ (tr = true → ns2 = ns1) ∧
    OutLike (Q ns2) (m s).1 (m' s').1 ∧ StS tr ns2 (m s).2 (m' s').2

abbrev EqQ (α : Type) : List Nat → α → α → Prop := fun _ => Eq

def RecS (rec rec' : Rec) : Prop :=
  ∀ tr ns c c' t t', CtxS ns c c' → TaskS ns t t' → MS tr ns SameButMarks (rec c t) (rec' c' t')

section
variable {tr : Bool} {ns : List Nat}

/-! ## The monad -/

theorem MS.mono {Q : List Nat → α → β → Prop} {m : M α} {m' : M β} (h : MS tr ns Q m m') {ns' : List Nat} (hn : ns <+: ns') :
    MS tr ns' Q m m' := fun ns1 h1 => h ns1 (hn.trans h1)

theorem ms_now {Q : List Nat → α → β → Prop} {m : M α} {m' : M β} {o : Out α} {o' : Out β}
    (hm : ∀ s, m s = (o, s)) (hm' : ∀ s, m' s = (o', s)) (h : ∀ ns1, ns <+: ns1 → OutLike (Q ns1) o o') : MS tr ns Q m m' := by
  intro ns1 hn s s' hs
  refine ⟨ns1, List.prefix_refl _, fun _ => rfl, ?_, ?_⟩
  · rw [hm, hm']; exact h ns1 hn
  · rw [hm, hm']; exact hs

theorem ms_pure {Q : List Nat → α → β → Prop} {a : α} {b : β} (h : ∀ ns1, ns <+: ns1 → Q ns1 a b) :
    MS tr ns Q (M.pure a) (M.pure b) := ms_now (fun _ => rfl) (fun _ => rfl) h

theorem ms_text {s s' : Str} (h : SameButMarks ns s s') : MS tr ns SameButMarks (M.pure s) (M.pure s') :=
  ms_pure fun _ hn => h.mono hn

theorem ms_eq (a : α) : MS tr ns (EqQ α) (M.pure a) (M.pure a) := ms_pure fun _ _ => rfl

theorem ms_err {Q : List Nat → α → β → Prop} (e : Err) : MS tr ns Q (M.err e) (M.err e) :=
  ms_now (fun _ => rfl) (fun _ => rfl) fun _ _ => rfl

theorem ms_panic {Q : List Nat → α → β → Prop} (p : Panic) : MS tr ns Q (M.panic p) (M.panic p) :=
  ms_now (fun _ => rfl) (fun _ => rfl) fun _ _ => rfl

theorem ms_oof {Q : List Nat → α → β → Prop} : MS tr ns Q (fun s => (.oof, s)) (fun s => (.oof, s)) :=
  ms_now (fun _ => rfl) (fun _ => rfl) fun _ _ => trivial

theorem ms_ofOut {o : Out α} : MS tr ns (EqQ α) (M.ofOut o) (M.ofOut o) :=
  ms_now (fun _ => rfl) (fun _ => rfl) fun _ _ => by cases o <;> simp [OutLike]

theorem MS.bind {Q : List Nat → α → β → Prop} {P : List Nat → γ → δ → Prop} {m : M α} {m' : M β} {k : α → M γ} {k' : β → M δ}
    (h : MS tr ns Q m m') (hk : ∀ ns1, ns <+: ns1 → ∀ a b, Q ns1 a b → MS tr ns1 P (k a) (k' b)) :
    MS tr ns P (M.bind m k) (M.bind m' k') := by
  intro ns1 hn s s' hs
  obtain ⟨ns2, f1, f2, h1, h2⟩ := h ns1 hn s s' hs
  unfold M.bind
  rcases h1.cases with ⟨a, b, e, e', hq⟩ | ⟨x, e, e'⟩ | ⟨x, e, e'⟩ | ⟨e, e'⟩ <;> rw [e, e'] <;> dsimp only
  · obtain ⟨ns3, g1, g2, h3⟩ := hk ns2 (hn.trans f1) a b hq ns2 (List.prefix_refl _) _ _ h2
    exact ⟨ns3, f1.trans g1, fun ht => (g2 ht).trans (f2 ht), h3⟩
  all_goals exact ⟨ns2, f1, f2, by simp [OutLike], h2⟩

theorem MS.bindEq {P : List Nat → γ → δ → Prop} {m m' : M α} {k : α → M γ} {k' : α → M δ}
    (h : MS tr ns (EqQ α) m m') (hk : ∀ a, MS tr ns P (k a) (k' a)) : MS tr ns P (M.bind m k) (M.bind m' k') :=
  h.bind fun _ hn a b e => by cases e; exact (hk a).mono hn

theorem MS.wrapErr {Q : List Nat → α → β → Prop} {m : M α} {m' : M β} (h : MS tr ns Q m m') (w : Str) :
    MS tr ns Q (M.wrapErr w m) (M.wrapErr w m') := by
  intro ns1 hn s s' hs
  obtain ⟨ns2, f1, f2, h1, h2⟩ := h ns1 hn s s' hs
  unfold M.wrapErr
  rcases h1.cases with ⟨a, b, e, e', hq⟩ | ⟨x, e, e'⟩ | ⟨x, e, e'⟩ | ⟨e, e'⟩ <;> rw [e, e'] <;> dsimp only
  · exact ⟨ns2, f1, f2, hq, h2⟩
  all_goals exact ⟨ns2, f1, f2, by simp [OutLike], h2⟩

theorem MS.safe {m m' : M Str} (h : MS tr ns SameButMarks m m') : MS tr ns SameButMarks (safeCall m) (safeCall m') := by
  intro ns1 hn s s' hs
  obtain ⟨ns2, f1, f2, h1, h2⟩ := h ns1 hn s s' hs
  unfold safeCall
  rcases h1.cases with ⟨a, b, e, e', hq⟩ | ⟨x, e, e'⟩ | ⟨x, e, e'⟩ | ⟨e, e'⟩ <;> rw [e, e'] <;> dsimp only
  · exact ⟨ns2, f1, f2, hq, h2⟩
  all_goals exact ⟨ns2, f1, f2, by simp [OutLike], h2⟩

/-! ## Arguments and properties -/

theorem commitArg_s {v : Val} (hv : ¬ Unhashable v) : MS tr ns SameButMarks (commitArg v) (commitArg v) := by
  intro ns1 hn s s' hs
  have hst := hs.store
  unfold StoresS at hst
  cases tr with
  | true =>
    simp only [if_true] at hst
    unfold commitArg
    rw [← hst]
    cases s.store.commit v with
    | none => exact ⟨ns1, List.prefix_refl _, fun _ => rfl, rfl, hs⟩
    | some r => exact ⟨ns1, List.prefix_refl _, fun _ => rfl, sameButMarks_str _ _, rfl, hs.usedA, hs.usedF, hs.heap, hs.good, hs.log⟩
  | false =>
    simp only [Bool.false_eq_true, if_false] at hst
    obtain ⟨hq, hst⟩ := hst
    have hc : s.store.commit v = some (lit "?", { s.store with args := s.store.args ++ [v] }) := by
      simp [Store.commit, hq]
    have e1 : commitArg v s = (.ok (lit "?"), { s with store := { s.store with args := s.store.args ++ [v] } }) := by
      unfold commitArg; rw [hc]
    have hh : v.hashable = true := (not_unhashable_iff v).1 hv
    have hd : s'.store.isDollar = true := by rw [(commitAll_prefix hst).2]; rfl
    have hcd : ∃ n t, s'.store.commit v = some (dollarMark n, t) := by
      unfold Store.commit
      simp only [hd, hh, if_true, Bool.not_true, Bool.false_eq_true, if_false]
      cases dictLookup s'.store.dict v with
      | some n => exact ⟨_, _, rfl⟩
      | none => exact ⟨_, _, rfl⟩
    obtain ⟨n, t, hcd⟩ := hcd
    have e2 : commitArg v s' = (.ok (dollarMark n), { s' with store := t }) := by
      unfold commitArg; rw [hcd]
    rw [e1, e2]
    refine ⟨ns1 ++ [n], List.prefix_append _ _, (fun h => Bool.noConfusion h), ?_, ?_, hs.usedA, hs.usedF, hs.heap, hs.good, hs.log⟩
    · refine ⟨[.bind ns1.length], by simp [binds], ?_, ?_⟩ <;> simp [renderDoc]
    · simp only [StoresS, Bool.false_eq_true, if_false]
      refine ⟨hq, ?_⟩
      rw [commitAll_snoc, hst]
      simp [hcd]

theorem markA_s (i : Nat) : MS tr ns (EqQ Unit) (markA i) (markA i) := fun ns1 _ _ _ hs =>
  ⟨ns1, List.prefix_refl _, fun _ => rfl, rfl, hs.store, by show i :: _ = i :: _; rw [hs.usedA], hs.usedF, hs.heap, hs.good, hs.log⟩

theorem markF_s (i : Nat) : MS tr ns (EqQ Unit) (markF i) (markF i) := fun ns1 _ _ _ hs =>
  ⟨ns1, List.prefix_refl _, fun _ => rfl, rfl, hs.store, hs.usedA, by show i :: _ = i :: _; rw [hs.usedF], hs.heap, hs.good, hs.log⟩

theorem mustFragment_s {c c' : Ctx} (h : CtxS ns c c') : MS tr ns FrameS (mustFragment c) (mustFragment c') := by
  have := h.frame
  unfold mustFragment
  cases hf : c.frame <;> cases hf' : c'.frame <;> rw [hf, hf'] at this <;> simp only [FrameS?] at this
  · exact ms_err _
  · exact ms_pure fun _ hn => ⟨this.args, this.hash, Pointwise.mono this.frags fun _ _ h => styleFree_mono hn _ _ h⟩

theorem argBuild_s {f f' : Frame} (h : FrameS ns f f') (i : Int) : MS tr ns SameButMarks (argBuild f i) (argBuild f' i) := by
  unfold argBuild
  rw [← h.args]
  cases position i f.args.length with
  | none => exact ms_err _
  | some k =>
    refine (markA_s k).bindEq fun _ => ?_
    cases hk : f.args[k]? with
    | none => exact ms_panic _
    | some v => exact commitArg_s (h.hash v (List.mem_of_getElem? hk))

theorem fragmentBuild_s {rec rec' : Rec} (hr : RecS rec rec') {c c' : Ctx} (hc : CtxS ns c c') {f f' : Frame}
    (h : FrameS ns f f') (i : Int) : MS tr ns SameButMarks (fragmentBuild rec c f i) (fragmentBuild rec' c' f' i) := by
  unfold fragmentBuild
  rw [h.frags.length]
  cases position i f'.frags.length with
  | none => exact ms_err _
  | some k =>
    refine (markF_s k).bindEq fun _ => ?_
    rcases h.frags.get k with ⟨h1, h2⟩ | ⟨a, b, h1, h2, h3⟩
    · rw [h1, h2]; exact ms_panic _
    · rw [h1, h2]; exact hr _ _ _ _ _ _ hc h3

theorem checkUsage_s {f f' : Frame} (h : FrameS ns f f') {ns1 : List Nat} {s s' : St} (hs : StS tr ns1 s s') :
    checkUsage f s = checkUsage f' s' := by
  unfold checkUsage
  rw [h.args, h.frags.length, hs.usedA, hs.usedF]

/-! ## Functions -/

theorem lookupFn_s {m m' : List (Str × FuncInfo)} (h : LayerS ns m m') (name : Str) :
    (lookupFn m name = none ∧ lookupFn m' name = none) ∨
      ∃ f f', lookupFn m name = some f ∧ lookupFn m' name = some f' ∧ InfoS ns f f' := by
  unfold lookupFn
  rcases h.find (p := fun p => p.1 = name) (q := fun p => p.1 = name) (fun a b hab => by rw [hab.1]) with
    ⟨h1, h2⟩ | ⟨x, y, h1, h2, h3⟩
  · exact .inl ⟨by rw [h1]; rfl, by rw [h2]; rfl⟩
  · exact .inr ⟨_, _, by rw [h1]; rfl, by rw [h2]; rfl, h3.2⟩

theorem fn_s {c c' : Ctx} (h : CtxS ns c c') (name : Str) :
    (c.fn name = none ∧ c'.fn name = none) ∨
      ∃ f f', c.fn name = some f ∧ c'.fn name = some f' ∧ InfoS ns f f' := by
  unfold Ctx.fn
  have := h.funcs
  revert this
  generalize c.funcs = fs
  generalize c'.funcs = fs'
  intro h
  induction h with
  | nil => exact .inl ⟨rfl, rfl⟩
  | cons h _ ih =>
    rw [List.findSome?_cons, List.findSome?_cons]
    rcases lookupFn_s h name with ⟨h1, h2⟩ | ⟨f, f', h1, h2, h3⟩
    · rw [h1, h2]; exact ih
    · rw [h1, h2]; exact .inr ⟨f, f', rfl, rfl, h3⟩

theorem goodFunc_s {f f' : FuncInfo} (h : InfoS ns f f') : goodFunc f = goodFunc f' := by
  unfold goodFunc
  rw [h.ins, h.variadic, h.outs]

theorem addValueFuncs_s (L : GoLib) : ∀ {fm fm' : FuncMap} {out out' : List (Str × FuncInfo)}, StyleFreeFuncs ns fm fm' →
    LayerS ns out out' → ExceptLike (LayerS ns) (addValueFuncs L out fm) (addValueFuncs L out' fm')
  | [], [], _, _, _, ho => ho
  | [], _ :: _, _, _, h, _ => by simp [StyleFreeFuncs] at h
  | _ :: _, [], _, _, h, _ => by simp [StyleFreeFuncs] at h
  | (n, f) :: rest, (n', f') :: rest', out, out', h, ho => by
    rw [StyleFreeFuncs, StyleFreeEntry] at h
    obtain ⟨⟨rfl, hf⟩, hs⟩ := h
    unfold addValueFuncs
    split
    · rfl
    · cases f <;> cases f' <;> simp only [StyleFreeFunc] at hf
      · rfl
      · obtain ⟨rfl, rfl, rfl, hb⟩ := hf
        dsimp only
        have hl : (lookupFn out n).isSome = (lookupFn out' n).isSome := by
          rcases lookupFn_s ho n with ⟨h1, h2⟩ | ⟨_, _, h1, h2, _⟩ <;> rw [h1, h2]; rfl
        rw [hl]
        split
        · rfl
        · rename_i _ ins v outs body body' _
          have hi : InfoS ns ⟨n, ins, v, outs, body⟩ ⟨n, ins, v, outs, body'⟩ := ⟨rfl, rfl, rfl, rfl, hb⟩
          rw [goodFunc_s hi]
          cases goodFunc ⟨n, ins, v, outs, body'⟩ with
          | some e => rfl
          | none => exact addValueFuncs_s L hs (ho.append (.cons ⟨rfl, hi⟩ .nil))

theorem contextWithFuncs_s (L : GoLib) {c c' : Ctx} (hc : CtxS ns c c') {fm fm' : FuncMap} (h : StyleFreeFuncs ns fm fm') :
    ExceptLike (CtxS ns) (contextWithFuncs L c fm) (contextWithFuncs L c' fm') := by
  unfold contextWithFuncs
  have := addValueFuncs_s L h (.nil : LayerS ns [] [])
  cases h1 : addValueFuncs L [] fm <;> cases h2 : addValueFuncs L [] fm' <;> rw [h1, h2] at this <;>
    simp only [ExceptLike] at this
  · exact this
  · exact ⟨.cons this hc.funcs, hc.frame⟩

/-- Carrying on after a build, whether it failed or not. -/
theorem resume_s {m m' : M Str} (h : MS tr ns SameButMarks m m') {k k' : Except Err Str → M Str}
    (hk : ∀ ns1, ns <+: ns1 → ∀ r r', SameResult ns1 r r' → MS tr ns1 SameButMarks (k r) (k' r')) :
    MS tr ns SameButMarks
      (fun s => match m s with
        | (.ok t, s1) => k (.ok t) s1
        | (.err e, s1) => k (.error e) s1
        | (.panic p, s1) => (.panic p, s1)
        | (.oof, s1) => (.oof, s1))
      (fun s => match m' s with
        | (.ok t, s1) => k' (.ok t) s1
        | (.err e, s1) => k' (.error e) s1
        | (.panic p, s1) => (.panic p, s1)
        | (.oof, s1) => (.oof, s1)) := by
  intro ns1 hn s s' hs
  obtain ⟨ns2, f1, f2, h1, h2⟩ := h ns1 hn s s' hs
  dsimp only
  rcases h1.cases with ⟨a, b, e, e', hq⟩ | ⟨x, e, e'⟩ | ⟨x, e, e'⟩ | ⟨e, e'⟩ <;> rw [e, e'] <;> dsimp only
  · obtain ⟨ns3, g1, g2, h3⟩ := hk ns2 (hn.trans f1) (.ok a) (.ok b) hq ns2 (List.prefix_refl _) _ _ h2
    exact ⟨ns3, f1.trans g1, fun ht => (g2 ht).trans (f2 ht), h3⟩
  · obtain ⟨ns3, g1, g2, h3⟩ := hk ns2 (hn.trans f1) (.error x) (.error x) rfl ns2 (List.prefix_refl _) _ _ h2
    exact ⟨ns3, f1.trans g1, fun ht => (g2 ht).trans (f2 ht), h3⟩
  all_goals exact ⟨ns2, f1, f2, by simp [OutLike], h2⟩

theorem ctx_s : CtxS [] rootCtx rootCtx := by
  refine ⟨.refl fun l hl => .refl fun p hp => ⟨rfl, rfl, rfl, rfl, rfl, ?_⟩, trivial⟩
  unfold rootCtx at hl
  simp only [List.mem_singleton] at hl
  subst hl
  have : ∀ q ∈ builtinTable, ∃ b, q.2.body = .builtin b := by
    intro q hq
    simp only [builtinTable, List.mem_cons, List.not_mem_nil, or_false] at hq
    rcases hq with rfl | rfl | rfl | rfl | rfl | rfl | rfl <;> exact ⟨_, rfl⟩
  obtain ⟨b, hb⟩ := this p hp
  rw [hb]
  simp [StyleFreeBody]

theorem ctx_any : CtxS ns rootCtx rootCtx := ctx_s.mono (List.nil_prefix)

theorem withOwnStore_s {m m' : M Str} (h : MS true ns SameButMarks m m') (style : Style) :
    MS tr ns SameQueryResult (withOwnStore style m) (withOwnStore style m') := by
  intro ns1 hn s s' hs
  have h0 : StS true ns1 { s with store := .new style, usedA := [], usedF := [] }
      { s' with store := .new style, usedA := [], usedF := [] } :=
    ⟨rfl, rfl, rfl, hs.heap, hs.good, hs.log⟩
  obtain ⟨ns2, -, f2, h1, h2⟩ := h ns1 hn _ _ h0
  have f3 := f2 rfl
  subst f3
  have ha : ∀ t t' : St, StS true ns2 t t' → t.store = t'.store := fun t t' ht => by
    have := ht.store; simpa [StoresS] using this
  have hb : ∀ t t' : St, StS true ns2 t t' → StS tr ns2 { t with store := s.store, usedA := s.usedA, usedF := s.usedF }
      { t' with store := s'.store, usedA := s'.usedA, usedF := s'.usedF } := fun t t' ht =>
    ⟨hs.store, hs.usedA, hs.usedF, ht.heap, ht.good, ht.log⟩
  unfold withOwnStore
  dsimp only
  refine ⟨ns2, List.prefix_refl _, fun _ => rfl, ?_⟩
  rcases h1.cases with ⟨a, b, e, e', hq⟩ | ⟨x, e, e'⟩ | ⟨x, e, e'⟩ | ⟨e, e'⟩ <;> rw [e, e'] <;> dsimp only
  · exact ⟨⟨hq, congrArg Store.args (ha _ _ h2)⟩, hb _ _ h2⟩
  · exact ⟨rfl, hb _ _ h2⟩
  · exact ⟨rfl, hb _ _ h2⟩
  · exact ⟨trivial, hb _ _ h2⟩

theorem runProg_s (L : GoLib) {rec rec' : Rec} (hr : RecS rec rec') {c c' : Ctx} :
    ∀ (ns : List Nat) (p p' : Prog), CtxS ns c c' → StyleFreeCode ns p p' → MS tr ns SameButMarks (runProg L rec c p) (runProg L rec' c' p')
  | ns, .ret s, p', hc, h => by
    cases p' <;> simp only [StyleFreeCode] at h
    exact ms_text h
  | ns, .fail e, p', hc, h => by
    cases p' <;> simp only [StyleFreeCode] at h
    subst h; exact ms_err _
  | ns, .panic m b, p', hc, h => by
    cases p' <;> simp only [StyleFreeCode] at h
    obtain ⟨rfl, rfl⟩ := h; exact ms_panic _
  | ns, .commit v k, p', hc, h => by
    cases p' <;> simp only [StyleFreeCode] at h
    obtain ⟨rfl, hv, hk⟩ := h
    rw [runProg, runProg]
    exact (commitArg_s hv).bind fun ns1 hn t t' ht => runProg_s L hr ns1 (k t) _ (hc.mono hn) (hk ns1 hn t t' ht)
  | ns, .args k, p', hc, h => by
    cases p' <;> simp only [StyleFreeCode] at h
    rw [runProg, runProg]
    intro ns1 hn s s' hs
    exact runProg_s L hr ns (k s.store.args) _ hc (h _ _) ns1 hn s s' hs
  | ns, .build b k, p', hc, h => by
    cases p' <;> simp only [StyleFreeCode] at h
    rw [runProg, runProg]
    exact resume_s (hr _ _ _ _ (.build _) (.build _) hc h.1) (k := fun r => runProg L rec c (k r)) fun ns1 hn r r' hrr =>
      runProg_s L hr ns1 (k r) _ (hc.mono hn) (h.2 ns1 hn r r' hrr)
  | ns, .buildWith fm b k, p', hc, h => by
    cases p' <;> simp only [StyleFreeCode] at h
    rw [runProg, runProg]
    have hf := contextWithFuncs_s L hc h.1
    revert hf
    cases contextWithFuncs L c fm with
    | error e =>
      intro hf
      cases hc' : contextWithFuncs L c' _ with
      | ok _ => rw [hc'] at hf; exact hf.elim
      | error e' =>
        rw [hc'] at hf
        cases hf
        exact runProg_s L hr ns (k _) _ hc (h.2.2 ns (List.prefix_refl _) _ _ rfl)
    | ok d =>
      intro hf
      cases hc' : contextWithFuncs L c' _ with
      | error _ => rw [hc'] at hf; exact hf.elim
      | ok d' =>
        rw [hc'] at hf
        exact resume_s (hr _ _ _ _ (.build _) (.build _) hf h.2.1) (k := fun r => runProg L rec c (k r)) fun ns1 hn r r' hrr =>
          runProg_s L hr ns1 (k r) _ (hc.mono hn) (h.2.2 ns1 hn r r' hrr)
  | ns, .query style b k, p', hc, h => by
    cases p' <;> simp only [StyleFreeCode] at h
    obtain ⟨rfl, hb, hk⟩ := h
    rw [runProg, runProg, newContext_eq]
    exact (withOwnStore_s (hr _ _ _ _ (.build _) (.build _) ctx_any hb) style).bind fun ns1 hn r r' hrr =>
      runProg_s L hr ns1 (k r) _ (hc.mono hn) (hk ns1 hn r r' hrr)
termination_by structural _ p => p

theorem signature_s {f f' : FuncInfo} (h : InfoS ns f f') :
    joinSignatureOk f = joinSignatureOk f' ∧ (∀ n, f.arityOk n = f'.arityOk n) ∧ (∀ n, f.paramTypes n = f'.paramTypes n) := by
  obtain ⟨name, ins, v, outs, body⟩ := f
  obtain ⟨name', ins', v', outs', body'⟩ := f'
  obtain ⟨h1, h2, h3, h4, -⟩ := h
  dsimp only at h1 h2 h3 h4
  subst h1; subst h2; subst h3; subst h4
  exact ⟨rfl, fun _ => rfl, fun _ => rfl⟩

theorem nilContext_s : CtxS ns newEmptyContext.withNilFragment newEmptyContext.withNilFragment :=
  ⟨.cons .nil .nil, rfl, by simp [Ctx.withNilFragment], .nil⟩

theorem joinCompatible_s {rec rec' : Rec} (hr : RecS rec rec') {f f' : FuncInfo} (h : InfoS ns f f') :
    MS tr ns (EqQ Bool) (joinCompatible rec f) (joinCompatible rec' f') := by
  intro ns1 hn s s' hs
  unfold joinCompatible
  rw [(signature_s h).1]
  split
  · exact ⟨ns1, List.prefix_refl _, fun _ => rfl, rfl, hs⟩
  · have h0 : StS true ns1 { s with store := .new question, usedA := [], usedF := [] }
        { s' with store := .new question, usedA := [], usedF := [] } :=
      ⟨rfl, rfl, rfl, hs.heap, hs.good, hs.log⟩
    obtain ⟨ns2, -, f2, h1, h2⟩ := hr true ns _ _ (.call f [.int 0]) (.call f' [.int 0]) nilContext_s ⟨h, rfl⟩ ns1 hn _ _ h0
    have f3 := f2 rfl
    subst f3
    dsimp only
    have hb : ∀ t t' : St, StS true ns2 t t' → StS tr ns2 { t with store := s.store, usedA := s.usedA, usedF := s.usedF }
        { t' with store := s'.store, usedA := s'.usedA, usedF := s'.usedF } := fun t t' ht =>
      ⟨hs.store, hs.usedA, hs.usedF, ht.heap, ht.good, ht.log⟩
    rcases h1.cases with ⟨a, b, e, e', hq⟩ | ⟨x, e, e'⟩ | ⟨x, e, e'⟩ | ⟨e, e'⟩ <;> rw [e, e'] <;> dsimp only <;>
      exact ⟨ns2, List.prefix_refl _, fun _ => rfl, by simp [OutLike], hb _ _ h2⟩

theorem joinCheck_s {rec rec' : Rec} (hr : RecS rec rec') {c c' : Ctx} (hc : CtxS ns c c') (es : List Expr) :
    MS tr ns (EqQ Nat) (joinCheck rec c es) (joinCheck rec' c' es) := by
  induction es with
  | nil => exact ms_eq _
  | cons e es ih =>
    cases e with
    | func name =>
      rw [joinCheck, joinCheck]
      rcases fn_s hc name with ⟨h1, h2⟩ | ⟨f, f', h1, h2, h3⟩
      · rw [h1, h2]; exact ms_err _
      · rw [h1, h2]
        refine (joinCompatible_s hr h3).bindEq fun ok => ?_
        cases ok with
        | true => exact ih.bindEq fun n => ms_eq _
        | false => exact ms_err _
    | _ => exact ih

theorem joinLoop_s {rec rec' : Rec} (hr : RecS rec rec') {c c' : Ctx} (es : List Expr)
    (sep : Str) (from_ to : Int) (n : Nat) : ∀ (ns : List Nat) (i : Int) (acc acc' : Str), CtxS ns c c' → SameButMarks ns acc acc' →
    MS tr ns SameButMarks (joinLoop rec c es sep from_ to n i acc) (joinLoop rec' c' es sep from_ to n i acc') := by
  induction n with
  | zero => intros; exact ms_oof
  | succ n ih =>
    intro ns i acc acc' hc ha ns1 hn s s' hs
    unfold joinLoop
    obtain ⟨ns2, f1, f2, h1, h2⟩ := hr _ _ _ _ (.clause (joinInst es i)) (.clause (joinInst es i)) hc rfl ns1 hn s s' hs
    rcases h1.cases with ⟨a, b, e, e', hq⟩ | ⟨x, e, e'⟩ | ⟨x, e, e'⟩ | ⟨e, e'⟩ <;> rw [e, e'] <;> dsimp only
    · have hj := joinAppend_alike sep (ha.mono (hn.trans f1)) hq
      split
      · exact ⟨ns2, f1, f2, hj, h2⟩
      · obtain ⟨ns3, g1, g2, h3⟩ := ih ns2 (i + 1) _ _ (hc.mono (hn.trans f1)) hj ns2 (List.prefix_refl _) _ _ h2
        exact ⟨ns3, f1.trans g1, fun ht => (g2 ht).trans (f2 ht), h3⟩
    · split
      · split
        · exact ⟨ns2, f1, f2, rfl, h2⟩
        · exact ⟨ns2, f1, f2, ha.mono (hn.trans f1), h2⟩
      · exact ⟨ns2, f1, f2, rfl, h2⟩
    all_goals exact ⟨ns2, f1, f2, by simp [OutLike], h2⟩

theorem funcJoin_s (L : GoLib) {rec rec' : Rec} (hr : RecS rec rec') (fuel : Nat) {c c' : Ctx} (hc : CtxS ns c c')
    (tmpl sep : Str) (is : List Int) :
    MS tr ns SameButMarks (funcJoin L rec fuel c tmpl sep is) (funcJoin L rec' fuel c' tmpl sep is) := by
  unfold funcJoin
  split
  · exact ms_err _
  · dsimp only
    split
    · exact ms_err _
    · cases parse L tmpl with
      | error e => exact ms_err _
      | ok es =>
        refine (joinCheck_s hr hc es).bindEq fun n => ?_
        split
        · exact ms_err _
        · exact joinLoop_s hr _ _ _ _ _ _ _ _ _ hc (sameButMarks_str _ _)

theorem callBody_s (L : GoLib) {rec rec' : Rec} (hr : RecS rec rec') (fuel : Nat) {c c' : Ctx} (hc : CtxS ns c c')
    {body body' : Body} (h : StyleFreeBody ns body body') (vs : List ArgVal) :
    MS tr ns SameButMarks (callBody L rec fuel c body vs) (callBody L rec' fuel c' body' vs) := by
  cases body <;> cases body' <;> simp only [StyleFreeBody] at h
  · subst h
    rename_i b
    cases b with
    | arg => exact (mustFragment_s hc).bind fun ns1 hn f f' hf => argBuild_s hf _
    | fragment => exact (mustFragment_s hc).bind fun ns1 hn f f' hf => fragmentBuild_s hr (hc.mono hn) hf _
    | join => exact funcJoin_s L hr fuel hc _ _ _
  · exact runProg_s L hr _ _ _ hc (h vs)

theorem evalCall_s (L : GoLib) {rec rec' : Rec} (hr : RecS rec rec') (fuel : Nat) {c c' : Ctx} (hc : CtxS ns c c')
    {f f' : FuncInfo} (h : InfoS ns f f') (as : List CallArg) :
    MS tr ns SameButMarks (evalCall L rec fuel c f as) (evalCall L rec' fuel c' f' as) := by
  obtain ⟨-, h2, h3⟩ := signature_s h
  unfold evalCall
  rw [h2, h3, h.name, h.outs]
  split
  · exact ms_err _
  · dsimp only
    cases evalArgs (f'.paramTypes as.length) as with
    | err e => exact ms_err _
    | panic p => exact ms_panic _
    | oof => exact ms_oof
    | ok vs =>
      refine MS.wrapErr (MS.safe ?_) _
      split
      · refine (callBody_s L hr fuel hc h.body vs).bind fun ns1 hn s s' hs => ms_text ?_
        unfold outString
        split
        · exact sameButMarks_str _ _
        · exact hs
      · exact ms_panic _

/-! ## Clauses and fragments -/

theorem evalExpr_s (L : GoLib) {rec rec' : Rec} (hr : RecS rec rec') (fuel : Nat) {c c' : Ctx} (hc : CtxS ns c c')
    (e : Expr) : MS tr ns SameButMarks (evalExpr L rec fuel c e) (evalExpr L rec' fuel c' e) := by
  cases e with
  | plain t => exact ms_text (sameButMarks_str _ _)
  | bindVar style i =>
    refine (mustFragment_s hc).bind fun ns1 hn f f' hf => ?_
    rw [hf.args]
    cases position i f'.args.length with
    | none => exact ms_err _
    | some _ => exact argBuild_s hf i
  | call name as =>
    show MS tr ns SameButMarks (evalFunction L rec fuel c name as) (evalFunction L rec' fuel c' name as)
    unfold evalFunction
    rcases fn_s hc name with ⟨h1, h2⟩ | ⟨f, f', h1, h2, h3⟩
    · rw [h1, h2]; exact ms_err _
    · rw [h1, h2]; exact evalCall_s L hr fuel hc h3 as
  | func name => exact ms_err _

theorem buildClause_s (L : GoLib) {rec rec' : Rec} (hr : RecS rec rec') (fuel : Nat) {c c' : Ctx}
    (es : List Expr) : ∀ (ns : List Nat), CtxS ns c c' → MS tr ns SameButMarks (buildClause L rec fuel c es) (buildClause L rec' fuel c' es) := by
  induction es with
  | nil => intro ns _; exact ms_text (sameButMarks_str _ _)
  | cons e es ih =>
    intro ns hc
    exact (evalExpr_s L hr fuel hc e).bind fun ns1 hn s s' hs => (ih ns1 (hc.mono hn)).bind fun ns2 hn2 t t' ht =>
      ms_text ((hs.mono hn2).append ht)

theorem styleFreeF_parts {f g : Fragment} (h : StyleFreeF ns f g) :
    f.raw = g.raw ∧ f.args = g.args ∧ (∀ v ∈ f.args, ¬ Unhashable v) ∧ Pointwise (StyleFree ns) f.frags g.frags ∧
      SameButMarks ns f.pre g.pre ∧ SameButMarks ns f.suf g.suf := by
  cases f; cases g
  rw [StyleFreeF] at h
  exact ⟨h.1, h.2.1, h.2.2.1, styleFreeL_pointwise.1 h.2.2.2.1, h.2.2.2.2⟩

theorem buildFragment_s (L : GoLib) {rec rec' : Rec} (hr : RecS rec rec') (fuel : Nat) {c c' : Ctx}
    (hc : CtxS ns c c') {f g : Fragment} (h : StyleFreeF ns f g) :
    MS tr ns SameButMarks (buildFragment L rec fuel c f) (buildFragment L rec' fuel c' g) := by
  obtain ⟨h1, h2, h2', h3, h4, h5⟩ := styleFreeF_parts h
  have hc2 : CtxS ns (c.withFragment f) (c'.withFragment g) := ⟨hc.funcs, h2, h2', h3⟩
  have hb : MS tr ns SameButMarks (buildBody L rec fuel (c.withFragment f) f) (buildBody L rec' fuel (c'.withFragment g) g) := by
    unfold buildBody
    rw [h1]
    cases parse L g.raw with
    | error e => exact ms_err _
    | ok es =>
      refine ((buildClause_s L hr fuel es ns hc2).wrapErr _).bind fun ns1 hn body body' hbody => ?_
      intro ns2 hn2 s s' hs
      dsimp only
      rw [checkUsage_s (ns := ns) (f := ⟨f.args, f.frags⟩) (f' := ⟨g.args, g.frags⟩) ⟨h2, h2', h3⟩ hs]
      refine ⟨ns2, List.prefix_refl _, fun _ => rfl, ?_⟩
      cases checkUsage ⟨g.args, g.frags⟩ s' with
      | some e => exact ⟨rfl, hs⟩
      | none => exact ⟨(decorate_alike (h4.mono hn) (h5.mono hn) hbody).mono hn2, hs⟩
  intro ns1 hn s s' hs
  obtain ⟨ns2, f1, f2, r1, r2⟩ := hb ns1 hn { s with usedA := [], usedF := [] } { s' with usedA := [], usedF := [] }
    ⟨hs.store, rfl, rfl, hs.heap, hs.good, hs.log⟩
  exact ⟨ns2, f1, f2, r1, r2.store, hs.usedA, hs.usedF, r2.heap, r2.good, r2.log⟩

/-! ## Query builders -/

theorem getQB_s (r : Nat) : MS tr ns (fun _ b b' => b = b' ∧ QuietQB b) (getQB r) (getQB r) := by
  intro ns1 _ s s' hs
  unfold getQB
  rw [← hs.heap]
  refine ⟨ns1, List.prefix_refl _, fun _ => rfl, ?_⟩
  cases h : s.heap[r]? with
  | none => exact ⟨rfl, hs⟩
  | some b => exact ⟨⟨rfl, hs.good b (List.mem_of_getElem? h)⟩, hs⟩

theorem withQB_s {P : List Nat → α → β → Prop} (r : Nat) {k : QB → M α} {k' : QB → M β}
    (h : ∀ b, QuietQB b → MS tr ns P (k b) (k' b)) : MS tr ns P (M.bind (getQB r) k) (M.bind (getQB r) k') :=
  (getQB_s r).bind fun _ hn b b' hb => by obtain ⟨rfl, hg⟩ := hb; exact (h b hg).mono hn

theorem modifyQB_s (r : Nat) {f : QB → QB} (h : ∀ b, QuietQB b → QuietQB (f b)) :
    MS tr ns (EqQ Unit) (modifyQB r f) (modifyQB r f) := by
  intro ns1 _ s s' hs
  unfold modifyQB
  rw [← hs.heap]
  refine ⟨ns1, List.prefix_refl _, fun _ => rfl, ?_⟩
  cases hb : s.heap[r]? with
  | none => exact ⟨rfl, hs⟩
  | some b =>
    refine ⟨rfl, hs.store, hs.usedA, hs.usedF, rfl, fun x hx => ?_, hs.log⟩
    rcases List.mem_or_eq_of_mem_set hx with hx | rfl
    · exact hs.good x hx
    · exact h b (hs.good b (List.mem_of_getElem? hb))

/-- Results of the loops: nothing, or such texts. -/
def OptAlike (ns : List Nat) : Option Str → Option Str → Prop
  | none, none => True
  | some s, some s' => SameButMarks ns s s'
  | _, _ => False

theorem OptAlike.list {o o' : Option Str} (h : OptAlike ns o o') : TextsAlike ns o.toList o'.toList := by
  cases o <;> cases o' <;> simp only [OptAlike] at h
  · exact .nil
  · exact .cons h .nil

theorem collectM_s {f g : α → M (Option Str)} (l : List α) : ∀ (ns : List Nat),
    (∀ a ∈ l, ∀ ns1, ns <+: ns1 → MS tr ns1 OptAlike (f a) (g a)) → MS tr ns TextsAlike (collectM f l) (collectM g l) := by
  induction l with
  | nil => intro ns _; exact ms_pure fun _ _ => .nil
  | cons a l ih =>
    intro ns hf
    exact (hf a (by simp) ns (List.prefix_refl _)).bind fun ns1 hn o o' ho =>
      (ih ns1 fun x hx ns2 hn2 => hf x (by simp [hx]) ns2 (hn.trans hn2)).bind fun ns2 hn2 l l' hl =>
        ms_pure fun ns3 hn3 => textsAlike_mono ((textsAlike_mono ho.list hn2).append hl) hn3

theorem opt_nil {s s' t t' : Str} (h : SameButMarks ns s s') (ht : SameButMarks ns t t') :
    OptAlike ns (if s = [] then none else some t) (if s' = [] then none else some t') := by
  by_cases hs : s = []
  · rw [if_pos hs, if_pos (h.nil_iff.1 hs)]; trivial
  · rw [if_neg hs, if_neg fun e => hs (h.nil_iff.2 e)]; exact ht

theorem OptAlike.mono {o o' : Option Str} (h : OptAlike ns o o') {ns' : List Nat} (hn : ns <+: ns') : OptAlike ns' o o' := by
  cases o <;> cases o' <;> simp only [OptAlike] at h ⊢
  exact h.mono hn

theorem blind_at {b : Builder} (h : BlindToStyle b) (ns : List Nat) : StyleFree ns b b :=
  styleFree_mono (List.nil_prefix) _ _ h

theorem blindF_at {f : Fragment} (h : StyleFreeF [] f f) (ns : List Nat) : StyleFreeF ns f f :=
  styleFreeF_mono (List.nil_prefix) _ _ h

theorem buildCTEs_s {rec rec' : Rec} (hr : RecS rec rec') {c c' : Ctx} (hc : CtxS ns c c') {b : QB}
    (h : QuietQB b) (dep : Deps) : MS tr ns SameButMarks (buildCTEs rec c b dep) (buildCTEs rec' c' b dep) := by
  unfold buildCTEs
  refine (collectM_s b.ctes ns ?_).bind fun ns1 _ l l' hl => ms_text ?_
  · intro x hx ns1 hn
    split
    · exact ms_pure fun _ _ => trivial
    · refine ((hr _ _ _ _ (.build _) (.build _) (hc.mono hn) (blind_at (h.ctes x hx) _)).wrapErr _).bind fun ns2 _ q q' hq =>
        ms_pure fun ns3 hn3 => (opt_nil hq ?_).mono hn3
      exact ((sameButMarks_str _ _).append hq).append (sameButMarks_str _ _)
  · rw [hl.length]
    split
    · exact sameButMarks_str _ _
    · exact (sameButMarks_str _ _).append (strJoin_alike hl _)

theorem cell_good {b : QB} (h : QuietQB b) : ∀ t ∈ b.tableList, BlindToStyle (rowBuilder t) := by
  intro t ht
  unfold QB.tableList at ht
  obtain ⟨p, -, rfl⟩ := List.mem_map.1 ht
  unfold QB.cell
  rw [List.getD_eq_getElem?_getD]
  cases hp : b.cells[p]? with
  | none => simp [rowBuilder, BlindToStyle, StyleFree]
  | some t => exact h.cells t (List.mem_of_getElem? hp)

theorem buildFrom_s (L : GoLib) {rec rec' : Rec} (hr : RecS rec rec') (fuel : Nat) {c c' : Ctx}
    (hc : CtxS ns c c') {b : QB} (h : QuietQB b) (dep : Deps) :
    MS tr ns SameButMarks (buildFrom L rec fuel c b dep) (buildFrom L rec' fuel c' b dep) := by
  unfold buildFrom
  refine (collectM_s b.tableList ns ?_).bind fun ns1 _ l l' hl => ms_text ((sameButMarks_str _ _).append (strJoin_alike hl _))
  intro x hx ns1 hn
  split
  · exact ms_pure fun _ _ => trivial
  · refine MS.bind (Q := SameButMarks) (MS.wrapErr ?_ _) fun ns2 _ q q' hq => ms_pure fun ns3 hn3 => SameButMarks.mono hq hn3
    have h3 := cell_good h x hx
    unfold rowBuilder at h3
    cases hx : x.fragment with
    | none => exact ms_text (sameButMarks_str _ _)
    | some f =>
      rw [hx] at h3
      simp only [BlindToStyle, StyleFree] at h3
      exact buildFragment_s L hr fuel (hc.mono hn) (blindF_at h3 _)

theorem styleFreeF_F (raw : Str) : StyleFreeF ns (.F raw) (.F raw) := by
  simp [StyleFreeF, StyleFreeL, Fragment.F, sameButMarks_str]

theorem styleFreeF_Ff {raw : Str} {b : Builder} (h : StyleFree ns b b) : StyleFreeF ns (.Ff raw [b]) (.Ff raw [b]) := by
  simp [StyleFreeF, StyleFreeL, Fragment.Ff, sameButMarks_str, h]

theorem styleFreeF_append {f : Fragment} (h : StyleFreeF ns f f) {bs : List Builder} (hb : ∀ b ∈ bs, StyleFree ns b b) :
    StyleFreeF ns (f.appendFragments bs) (f.appendFragments bs) := by
  cases f
  simp only [Fragment.appendFragments, StyleFreeF] at h ⊢
  refine ⟨trivial, trivial, h.2.2.1, ?_, h.2.2.2.2⟩
  rw [styleFreeL_pointwise] at h ⊢
  exact h.2.2.2.1.append (Pointwise.refl hb)

theorem styleFreeF_set {f : Fragment} (h : StyleFreeF ns f f) {bs : List Builder} (hb : ∀ b ∈ bs, StyleFree ns b b) :
    StyleFreeF ns (f.withFragments bs) (f.withFragments bs) := by
  cases f
  simp only [Fragment.withFragments, StyleFreeF] at h ⊢
  refine ⟨trivial, trivial, h.2.2.1, ?_, h.2.2.2.2⟩
  rw [styleFreeL_pointwise]
  exact Pointwise.refl hb

theorem styleFreeF_prefix {f : Fragment} (h : StyleFreeF ns f f) (p : Str) : StyleFreeF ns (f.withPrefix p) (f.withPrefix p) := by
  cases f
  simp only [Fragment.withPrefix, StyleFreeF] at h ⊢
  exact ⟨trivial, trivial, h.2.2.1, h.2.2.2.1, sameButMarks_str _ _, h.2.2.2.2.2⟩

theorem orderItems_good (distinct : Bool) : ∀ (os : List OrderItem), (∀ o ∈ os, BlindToStyle o.column) → ∀ i,
    (∀ b ∈ (orderItems distinct i os).1, BlindToStyle b) ∧ ∀ b ∈ (orderItems distinct i os).2.1, BlindToStyle b
  | [], _, _ => by simp [orderItems]
  | o :: os, h, i => by
    obtain ⟨h1, h2⟩ := orderItems_good distinct os (fun o ho => h o (by simp [ho])) (i + 1)
    unfold orderItems
    cases orderNames[o.order]? with
    | none => exact ⟨h1, h2⟩
    | some name =>
      have ho := h o (by simp)
      have hf : ∀ raw, BlindToStyle (.frag (.Ff raw [o.column])) := fun raw => by
        unfold BlindToStyle; rw [StyleFree]; exact styleFreeF_Ff ho
      cases distinct with
      | false =>
        refine ⟨?_, h2⟩
        intro b hb
        rcases List.mem_cons.1 hb with rfl | hb
        · exact hf _
        · exact h1 b hb
      | true =>
        constructor
        · intro b hb
          rcases List.mem_cons.1 hb with rfl | hb
          · unfold BlindToStyle; rw [StyleFree]; exact styleFreeF_F _
          · exact h1 b hb
        · intro b hb
          rcases List.mem_cons.1 hb with rfl | hb
          · exact hf _
          · exact h2 b hb

theorem buildOrders_s (L : GoLib) {rec rec' : Rec} (hr : RecS rec rec') (fuel : Nat) {c c' : Ctx}
    (hc : CtxS ns c c') (r : Nat) : MS tr ns SameButMarks (buildOrders L rec fuel c r) (buildOrders L rec' fuel c' r) := by
  unfold buildOrders
  refine withQB_s r fun b h => ?_
  obtain ⟨h1, h2⟩ := orderItems_good b.distinct b.orders h.orders 0
  dsimp only
  refine (modifyQB_s r ?_).bindEq fun _ => ?_
  · intro d hd
    exact ⟨hd.ctes, hd.cells, hd.selects, styleFreeF_append hd.touches h2, hd.conditions, hd.orders, hd.groupbys, hd.unions, hd.quiet⟩
  · exact buildFragment_s L hr fuel hc
      (styleFreeF_append (styleFreeF_prefix (styleFreeF_F _) _) fun b hb => blind_at (h1 b hb) _)

theorem buildSelects_s (L : GoLib) {rec rec' : Rec} (hr : RecS rec rec') (fuel : Nat) {c c' : Ctx}
    (hc : CtxS ns c c') (r : Nat) : MS tr ns SameButMarks (buildSelects L rec fuel c r) (buildSelects L rec' fuel c' r) := by
  unfold buildSelects
  refine (modifyQB_s r ?_).bindEq fun _ => ?_
  · intro d hd
    exact ⟨hd.ctes, hd.cells, styleFreeF_prefix hd.selects _, hd.touches, hd.conditions, hd.orders, hd.groupbys, hd.unions, hd.quiet⟩
  · refine withQB_s r fun b h => ?_
    refine (buildFragment_s L hr fuel hc (blindF_at h.selects _)).bind fun ns1 hn sel sel' hs => ?_
    refine withQB_s r fun b h => ?_
    refine (buildFragment_s L hr fuel (hc.mono hn) (blindF_at h.touches _)).bind fun ns2 hn2 t t' ht => ?_
    have hs := hs.mono hn2
    by_cases he : sel = []
    · rw [if_pos he, if_pos (hs.nil_iff.1 he)]; exact ms_err _
    · rw [if_neg he, if_neg fun e => he (hs.nil_iff.2 e)]
      exact ms_text (ht.ite hs ((hs.append (sameButMarks_str _ _)).append ht))

theorem buildUnion_s {rec rec' : Rec} (hr : RecS rec rec') {c c' : Ctx} (hc : CtxS ns c c')
    {us : List Builder} (h : ∀ u ∈ us, BlindToStyle u) : MS tr ns SameButMarks (buildUnion rec c us) (buildUnion rec' c' us) := by
  unfold buildUnion
  refine (collectM_s us ns ?_).bind fun ns1 _ l l' hl =>
    ms_text (((sameButMarks_str _ _).append (strJoin_alike hl _)).append (sameButMarks_str _ _))
  intro x hx ns1 hn
  exact (hr _ _ _ _ (.build _) (.build _) (hc.mono hn) (blind_at (h x hx) _)).bind fun ns2 _ q q' hq =>
    ms_pure fun ns3 hn3 => (opt_nil hq hq).mono hn3

theorem buildInternal_s (L : GoLib) {rec rec' : Rec} (hr : RecS rec rec') (fuel : Nat) {c c' : Ctx}
    (hc : CtxS ns c c') (r : Nat) : MS tr ns SameButMarks (buildInternal L rec fuel c r) (buildInternal L rec' fuel c' r) := by
  unfold buildInternal
  refine withQB_s r fun b h => ?_
  split
  · exact ms_err _
  refine ms_ofOut.bindEq fun dep => ?_
  refine (buildCTEs_s hr hc h dep).bind fun n1 e1 sq sq' hsq => ?_
  refine withQB_s r fun b h => ?_
  refine (buildFrom_s L hr fuel (hc.mono e1) h dep).bind fun n2 e2 from_ from' hfrom => ?_
  refine withQB_s r fun b h => ?_
  have e12 := e1.trans e2
  refine (buildFragment_s L hr fuel (hc.mono e12) (blindF_at h.conditions _)).bind fun n3 e3 where_ where' hwhere => ?_
  refine withQB_s r fun b h => ?_
  have e13 := e12.trans e3
  refine (buildFragment_s L hr fuel (hc.mono e13) (blindF_at h.groupbys _)).bind fun n4 e4 groupby groupby' hgroup => ?_
  have e14 := e13.trans e4
  refine (buildOrders_s L hr fuel (hc.mono e14) r).bind fun n5 e5 order order' horder => ?_
  have e15 := e14.trans e5
  refine withQB_s r fun b h => ?_
  dsimp only
  refine (buildSelects_s L hr fuel (hc.mono e15) r).bind fun n6 e6 sel sel' hsel => ?_
  have e16 := e15.trans e6
  have hq : SameButMarks n6
      (trimSpace (strJoin (lit " ") (nonEmpty sq ++ [sel] ++ nonEmpty from_ ++ nonEmpty where_ ++ nonEmpty groupby ++ nonEmpty order ++
        (if b.limit > 0 then [lit "LIMIT " ++ itoa b.limit] else []) ++ (if b.offset > 0 then [lit "OFFSET " ++ itoa b.offset] else []))))
      (trimSpace (strJoin (lit " ") (nonEmpty sq' ++ [sel'] ++ nonEmpty from' ++ nonEmpty where' ++ nonEmpty groupby' ++ nonEmpty order' ++
        (if b.limit > 0 then [lit "LIMIT " ++ itoa b.limit] else []) ++ (if b.offset > 0 then [lit "OFFSET " ++ itoa b.offset] else [])))) := by
    have hs : ∀ (l : List Str), TextsAlike n6 l l := fun l => Pointwise.refl fun s _ => sameButMarks_str _ s
    refine (strJoin_alike ?_ _).trim
    refine Pointwise.append (Pointwise.append (Pointwise.append (Pointwise.append (Pointwise.append (Pointwise.append
      (Pointwise.append ?_ (.cons hsel .nil)) ?_) ?_) ?_) ?_) (hs _)) (hs _)
    · exact nonEmpty_alike (hsq.mono ((((e2.trans e3).trans e4).trans e5).trans e6))
    · exact nonEmpty_alike (hfrom.mono (((e3.trans e4).trans e5).trans e6))
    · exact nonEmpty_alike (hwhere.mono ((e4.trans e5).trans e6))
    · exact nonEmpty_alike (hgroup.mono (e5.trans e6))
    · exact nonEmpty_alike (horder.mono e6)
  refine withQB_s r fun b h => ?_
  refine MS.bind (Q := SameButMarks) ?_ fun n7 e7 query query' hquery => ?_
  · split
    · exact (buildUnion_s hr (hc.mono e16) h.unions).bind fun n7 e7 u u' hu =>
        ms_text (((hq.mono e7).append (sameButMarks_str _ _)).append hu).trim
    · exact ms_text hq
  refine withQB_s r fun b h => ?_
  rw [h.quiet]
  exact (ms_eq ()).bindEq fun _ => ms_text hquery

/-! ## Everything -/

theorem buildBuilder_s (L : GoLib) {rec rec' : Rec} (hr : RecS rec rec') (fuel : Nat) {c c' : Ctx}
    (hc : CtxS ns c c') {b b' : Builder} (h : StyleFree ns b b') :
    MS tr ns SameButMarks (buildBuilder L rec fuel c b) (buildBuilder L rec' fuel c' b') := by
  cases b <;> cases b' <;> simp only [StyleFree] at h
  case nil => exact ms_panic _
  case nilFrag => exact ms_text (sameButMarks_str _ _)
  case frag => exact buildFragment_s L hr fuel hc h
  case nilColumn => exact ms_panic _
  case columnNilFrag => exact ms_text (sameButMarks_str _ _)
  case column => exact buildFragment_s L hr fuel hc h.2
  case table => subst h; exact ms_text (sameButMarks_str _ _)
  case aliased => obtain ⟨rfl, rfl⟩ := h; exact ms_text (sameButMarks_str _ _)
  case nilQb => exact ms_text (sameButMarks_str _ _)
  case qb => subst h; exact buildInternal_s L hr fuel hc _
  case custom => exact runProg_s L hr _ _ _ hc h

end

theorem run_s (L : GoLib) (n : Nat) : RecS (run L n) (run L n) := by
  induction n with
  | zero => exact fun _ _ _ _ _ _ _ _ => ms_oof
  | succ n ih =>
    intro tr ns c c' t t' hc ht
    show MS tr ns SameButMarks (step L (run L n) n c t) (step L (run L n) n c' t')
    unfold step
    cases t <;> cases t' <;> simp only [TaskS] at ht
    · exact buildBuilder_s L ih n hc ht
    · subst ht; exact buildClause_s L ih n _ _ hc
    · obtain ⟨hf, rfl⟩ := ht; exact evalCall_s L ih n hc hf _

end Sqlf
