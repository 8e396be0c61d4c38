import Verif.Proofs.QueryCalls
import Verif.Proofs.Api
/-!
# Two runs in lockstep

Builders that are equal but for their argument values — user code included — are evaluated step by step
alike: same texts, same errors, same panics, related arguments, and query builders that are again equal but for
their argument values.
-/

namespace Sqlf

open Spec

section
variable {R : Val → Val → Prop}

/-- Outcomes that agree, with related results. -/
def OutLike (Q : α → β → Prop) : Out α → Out β → Prop
  | .ok a, .ok b => Q a b
  | .err e, .err e' => e = e'
  | .panic p, .panic p' => p = p'
  | .oof, .oof => True
  | _, _ => False

structure InfoLike (R : Val → Val → Prop) (f f' : FuncInfo) : Prop where
  name : f.name = f'.name
  ins : f.ins = f'.ins
  variadic : f.variadic = f'.variadic
  outs : f.outs = f'.outs
  body : SameBody R f.body f'.body

abbrev LayerLike (R : Val → Val → Prop) : List (Str × FuncInfo) → List (Str × FuncInfo) → Prop :=
  Pointwise fun p p' => p.1 = p'.1 ∧ InfoLike R p.2 p'.2

structure FrameLike (R : Val → Val → Prop) (f f' : Frame) : Prop where
  args : Pointwise R f.args f'.args
  frags : Pointwise (SameQ R) f.frags f'.frags

def FrameLike? (R : Val → Val → Prop) : Option Frame → Option Frame → Prop
  | none, none => True
  | some f, some f' => FrameLike R f f'
  | _, _ => False

structure CtxLike (R : Val → Val → Prop) (c c' : Ctx) : Prop where
  funcs : Pointwise (LayerLike R) c.funcs c'.funcs
  frame : FrameLike? R c.frame c'.frame

/-- What `BuildQuery` returns in two runs. -/
def QueryLike (R : Val → Val → Prop) : Except Err (Str × List Val) → Except Err (Str × List Val) → Prop
  | .ok a, .ok b => a.1 = b.1 ∧ Pointwise R a.2 b.2
  | .error e, .error e' => e = e'
  | _, _ => False

def TaskLike (R : Val → Val → Prop) : Task → Task → Prop
  | .build b, .build b' => SameQ R b b'
  | .clause es, .clause es' => es = es'
  | .call f as, .call f' as' => InfoLike R f f' ∧ as = as'
  | _, _ => False

/-- Query builders that do not log and are equal but for argument values. -/
structure QBLike (R : Val → Val → Prop) (b b' : QB) : Prop where
  same : SameQB R b b'
  quiet : b.debug = false
  quiet' : b'.debug = false

structure StLike (R : Val → Val → Prop) (s s' : St) : Prop where
  store : StoreR R s.store s'.store
  compat : s.store.isDollar = true → Compat R
  usedA : s.usedA = s'.usedA
  usedF : s.usedF = s'.usedF
  heap : Pointwise (QBLike R) s.heap s'.heap
  log : s.log = s'.log

def MLike (R : Val → Val → Prop) (Q : α → β → Prop) (m : M α) (m' : M β) : Prop :=
  ∀ s s', StLike R s s' → OutLike Q (m s).1 (m' s').1 ∧ StLike R (m s).2 (m' s').2

def RecLike (R : Val → Val → Prop) (rec rec' : Rec) : Prop :=
  ∀ c c' t t', CtxLike R c c' → TaskLike R t t' → MLike R Eq (rec c t) (rec' c' t')

/-! ## The monad -/

theorem mlike_pure {Q : α → β → Prop} {a : α} {b : β} (h : Q a b) : MLike R Q (M.pure a) (M.pure b) :=
  fun _ _ hs => ⟨h, hs⟩

theorem mlike_err {Q : α → β → Prop} (e : Err) : MLike R Q (M.err e) (M.err e) := fun _ _ hs => ⟨rfl, hs⟩

theorem mlike_panic {Q : α → β → Prop} (p : Panic) : MLike R Q (M.panic p) (M.panic p) := fun _ _ hs => ⟨rfl, hs⟩

theorem mlike_oof {Q : α → β → Prop} : MLike R Q (fun s => (.oof, s)) (fun s => (.oof, s)) := fun _ _ hs => ⟨trivial, hs⟩

theorem mlike_ofOut {o : Out α} : MLike R Eq (M.ofOut o) (M.ofOut o) := fun _ _ hs => by
  refine ⟨?_, hs⟩
  show OutLike Eq o o
  cases o <;> simp [OutLike]

/-- Two outcomes that agree, by cases. -/
theorem OutLike.cases {Q : α → β → Prop} {r : Out α × St} {r' : Out β × St} (h : OutLike Q r.1 r'.1) :
    (∃ a b, r = (.ok a, r.2) ∧ r' = (.ok b, r'.2) ∧ Q a b) ∨ (∃ e, r = (.err e, r.2) ∧ r' = (.err e, r'.2)) ∨
      (∃ p, r = (.panic p, r.2) ∧ r' = (.panic p, r'.2)) ∨ (r = (.oof, r.2) ∧ r' = (.oof, r'.2)) := by
  rcases r with ⟨o, s⟩
  rcases r' with ⟨o', s'⟩
  cases o <;> cases o' <;> simp only [OutLike] at h <;> simp_all

theorem MLike.bind {Q : α → β → Prop} {P : γ → δ → Prop} {m : M α} {m' : M β} {k : α → M γ} {k' : β → M δ}
    (h : MLike R Q m m') (hk : ∀ a b, Q a b → MLike R P (k a) (k' b)) : MLike R P (M.bind m k) (M.bind m' k') := by
  intro s s' hs
  obtain ⟨h1, h2⟩ := h s s' hs
  unfold M.bind
  rcases h1.cases with ⟨a, b, e, e', hq⟩ | ⟨x, e, e'⟩ | ⟨x, e, e'⟩ | ⟨e, e'⟩ <;> rw [e, e'] <;> dsimp only
  · exact hk a b hq _ _ h2
  all_goals exact ⟨by simp [OutLike], h2⟩

theorem MLike.bindEq {P : γ → δ → Prop} {m m' : M α} {k : α → M γ} {k' : α → M δ}
    (h : MLike R Eq m m') (hk : ∀ a, MLike R P (k a) (k' a)) : MLike R P (M.bind m k) (M.bind m' k') :=
  h.bind fun a b e => by subst e; exact hk a

theorem MLike.wrapErr {Q : α → β → Prop} {m : M α} {m' : M β} (h : MLike R Q m m') (w : Str) :
    MLike R Q (M.wrapErr w m) (M.wrapErr w m') := by
  intro s s' hs
  obtain ⟨h1, h2⟩ := h s s' hs
  unfold M.wrapErr
  rcases h1.cases with ⟨a, b, e, e', hq⟩ | ⟨x, e, e'⟩ | ⟨x, e, e'⟩ | ⟨e, e'⟩ <;> rw [e, e'] <;> dsimp only
  · exact ⟨hq, h2⟩
  all_goals exact ⟨by simp [OutLike], h2⟩

theorem MLike.safe {m m' : M Str} (h : MLike R Eq m m') : MLike R Eq (safeCall m) (safeCall m') := by
  intro s s' hs
  obtain ⟨h1, h2⟩ := h s s' hs
  unfold safeCall
  rcases h1.cases with ⟨a, b, e, e', hq⟩ | ⟨x, e, e'⟩ | ⟨x, e, e'⟩ | ⟨e, e'⟩ <;> rw [e, e'] <;> dsimp only
  · exact ⟨hq, h2⟩
  all_goals exact ⟨by simp [OutLike], h2⟩

/-! ## Arguments and properties -/

theorem commitArg_like {v v' : Val} (hv : R v v') : MLike R Eq (commitArg v) (commitArg v') := by
  intro s s' hs
  unfold commitArg
  cases hc : s.store.commit v with
  | some x =>
    obtain ⟨p, t⟩ := x
    obtain ⟨t', h1, h2⟩ := commit_rel hs.store hs.compat hv hc
    rw [h1]
    dsimp only
    refine ⟨rfl, h2, ?_, hs.usedA, hs.usedF, hs.heap, hs.log⟩
    intro hd
    exact hs.compat (by rw [← (Store.commit_prefix hc).2]; exact hd)
  | none =>
    have h1 : s'.store.commit v' = none := by
      unfold Store.commit at hc ⊢
      rw [← hs.store.dollar]
      cases hd : s.store.isDollar with
      | false => simp [hd] at hc
      | true =>
        have hC := hs.compat hd
        rw [hd] at hc
        simp only [if_true] at hc ⊢
        rw [← hC.hash _ _ hv]
        cases hh : v.hashable with
        | false => simp
        | true =>
          simp only [hh, Bool.not_true, Bool.false_eq_true, if_false] at hc
          cases hl : dictLookup s.store.dict v <;> simp [hl] at hc
    rw [h1]
    exact ⟨rfl, hs⟩

theorem markA_like (i : Nat) : MLike R Eq (markA i) (markA i) := fun _ _ hs =>
  ⟨rfl, hs.store, hs.compat, by show i :: _ = i :: _; rw [hs.usedA], hs.usedF, hs.heap, hs.log⟩

theorem markF_like (i : Nat) : MLike R Eq (markF i) (markF i) := fun _ _ hs =>
  ⟨rfl, hs.store, hs.compat, hs.usedA, by show i :: _ = i :: _; rw [hs.usedF], hs.heap, hs.log⟩

theorem mustFragment_like {c c' : Ctx} (h : CtxLike R c c') : MLike R (FrameLike R) (mustFragment c) (mustFragment c') := by
  have := h.frame
  unfold mustFragment
  cases hf : c.frame <;> cases hf' : c'.frame <;> rw [hf, hf'] at this <;> simp only [FrameLike?] at this
  · exact mlike_err _
  · exact mlike_pure this

theorem argBuild_like {f f' : Frame} (h : FrameLike R f f') (i : Int) : MLike R Eq (argBuild f i) (argBuild f' i) := by
  unfold argBuild
  rw [h.args.length]
  cases position i f'.args.length with
  | none => exact mlike_err _
  | some k =>
    refine (markA_like k).bindEq fun _ => ?_
    rcases h.args.get k with ⟨h1, h2⟩ | ⟨a, b, h1, h2, h3⟩
    · rw [h1, h2]; exact mlike_panic _
    · rw [h1, h2]; exact commitArg_like h3

theorem fragmentBuild_like {rec rec' : Rec} (hr : RecLike R rec rec') {c c' : Ctx} (hc : CtxLike R c c') {f f' : Frame}
    (h : FrameLike R f f') (i : Int) : MLike R Eq (fragmentBuild rec c f i) (fragmentBuild rec' c' f' i) := by
  unfold fragmentBuild
  rw [h.frags.length]
  cases position i f'.frags.length with
  | none => exact mlike_err _
  | some k =>
    refine (markF_like k).bindEq fun _ => ?_
    rcases h.frags.get k with ⟨h1, h2⟩ | ⟨a, b, h1, h2, h3⟩
    · rw [h1, h2]; exact mlike_panic _
    · rw [h1, h2]; exact hr _ _ _ _ hc h3

theorem checkUsage_like {f f' : Frame} (h : FrameLike R f f') {s s' : St} (hs : StLike R s s') :
    checkUsage f s = checkUsage f' s' := by
  unfold checkUsage
  rw [h.args.length, h.frags.length, hs.usedA, hs.usedF]

/-! ## Functions -/

theorem lookupFn_like {m m' : List (Str × FuncInfo)} (h : LayerLike R m m') (name : Str) :
    (lookupFn m name = none ∧ lookupFn m' name = none) ∨
      ∃ f f', lookupFn m name = some f ∧ lookupFn m' name = some f' ∧ InfoLike R f f' := by
  unfold lookupFn
  rcases h.find (p := fun p => p.1 = name) (q := fun p => p.1 = name) (fun a b hab => by rw [hab.1]) with
    ⟨h1, h2⟩ | ⟨x, y, h1, h2, h3⟩
  · exact .inl ⟨by rw [h1]; rfl, by rw [h2]; rfl⟩
  · exact .inr ⟨_, _, by rw [h1]; rfl, by rw [h2]; rfl, h3.2⟩

theorem fn_like {c c' : Ctx} (h : CtxLike R c c') (name : Str) :
    (c.fn name = none ∧ c'.fn name = none) ∨
      ∃ f f', c.fn name = some f ∧ c'.fn name = some f' ∧ InfoLike R f f' := by
  unfold Ctx.fn
  have := h.funcs
  revert this
  generalize c.funcs = fs
  generalize c'.funcs = fs'
  intro h
  induction h with
  | nil => exact .inl ⟨rfl, rfl⟩
  | cons h _ ih =>
    rw [List.findSome?_cons, List.findSome?_cons]
    rcases lookupFn_like h name with ⟨h1, h2⟩ | ⟨f, f', h1, h2, h3⟩
    · rw [h1, h2]; exact ih
    · rw [h1, h2]; exact .inr ⟨f, f', rfl, rfl, h3⟩

def ExceptLike (Q : α → β → Prop) : Except Err α → Except Err β → Prop
  | .ok a, .ok b => Q a b
  | .error e, .error e' => e = e'
  | _, _ => False

theorem goodFunc_like {f f' : FuncInfo} (h : InfoLike R f f') : goodFunc f = goodFunc f' := by
  unfold goodFunc
  rw [h.ins, h.variadic, h.outs]

theorem addValueFuncs_like (L : GoLib) : ∀ {fm fm' : FuncMap} {out out' : List (Str × FuncInfo)}, SameFuncs R fm fm' →
    LayerLike R out out' → ExceptLike (LayerLike R) (addValueFuncs L out fm) (addValueFuncs L out' fm')
  | [], [], _, _, _, ho => ho
  | [], _ :: _, _, _, h, _ => by simp [SameFuncs] at h
  | _ :: _, [], _, _, h, _ => by simp [SameFuncs] at h
  | (n, f) :: rest, (n', f') :: rest', out, out', h, ho => by
    rw [SameFuncs, SameEntry] at h
    obtain ⟨⟨rfl, hf⟩, hs⟩ := h
    unfold addValueFuncs
    split
    · rfl
    · cases f <;> cases f' <;> simp only [SameFunc] at hf
      · rfl
      · obtain ⟨rfl, rfl, rfl, hb⟩ := hf
        dsimp only
        have hl : (lookupFn out n).isSome = (lookupFn out' n).isSome := by
          rcases lookupFn_like ho n with ⟨h1, h2⟩ | ⟨_, _, h1, h2, _⟩ <;> rw [h1, h2]; rfl
        rw [hl]
        split
        · rfl
        · rename_i _ ins v outs body body' _
          have hi : InfoLike R ⟨n, ins, v, outs, body⟩ ⟨n, ins, v, outs, body'⟩ := ⟨rfl, rfl, rfl, rfl, hb⟩
          rw [goodFunc_like hi]
          cases goodFunc ⟨n, ins, v, outs, body'⟩ with
          | some e => rfl
          | none => exact addValueFuncs_like L hs (ho.append (.cons ⟨rfl, hi⟩ .nil))

theorem contextWithFuncs_like (L : GoLib) {c c' : Ctx} (hc : CtxLike R c c') {fm fm' : FuncMap} (h : SameFuncs R fm fm') :
    ExceptLike (CtxLike R) (contextWithFuncs L c fm) (contextWithFuncs L c' fm') := by
  unfold contextWithFuncs
  have := addValueFuncs_like L h (.nil : LayerLike R [] [])
  cases h1 : addValueFuncs L [] fm <;> cases h2 : addValueFuncs L [] fm' <;> rw [h1, h2] at this <;>
    simp only [ExceptLike] at this
  · exact this
  · exact ⟨.cons this hc.funcs, hc.frame⟩

/-- Carrying on after a build, whether it failed or not. -/
theorem resume_like {m m' : M Str} (h : MLike R Eq m m') {k k' : Except Err Str → M Str}
    (hk : ∀ r, MLike R Eq (k r) (k' r)) :
    MLike R Eq
      (fun s => match m s with
        | (.ok t, s1) => k (.ok t) s1
        | (.err e, s1) => k (.error e) s1
        | (.panic p, s1) => (.panic p, s1)
        | (.oof, s1) => (.oof, s1))
      (fun s => match m' s with
        | (.ok t, s1) => k' (.ok t) s1
        | (.err e, s1) => k' (.error e) s1
        | (.panic p, s1) => (.panic p, s1)
        | (.oof, s1) => (.oof, s1)) := by
  intro s s' hs
  obtain ⟨h1, h2⟩ := h s s' hs
  dsimp only
  rcases h1.cases with ⟨a, b, e, e', hq⟩ | ⟨x, e, e'⟩ | ⟨x, e, e'⟩ | ⟨e, e'⟩ <;> rw [e, e'] <;> dsimp only
  · subst hq; exact hk _ _ _ h2
  · exact hk _ _ _ h2
  all_goals exact ⟨by simp [OutLike], h2⟩

theorem builtinTable_like (R : Val → Val → Prop) : LayerLike R builtinTable builtinTable := by
  unfold builtinTable
  refine Pointwise.refl fun p hp => ⟨rfl, rfl, rfl, rfl, rfl, ?_⟩
  have : ∃ b, p.2.body = .builtin b := by
    simp only [List.mem_cons, List.not_mem_nil, or_false] at hp
    rcases hp with rfl | rfl | rfl | rfl <;> exact ⟨_, rfl⟩
  obtain ⟨b, hb⟩ := this
  rw [hb, SameBody]

theorem rootCtx_like (R : Val → Val → Prop) : CtxLike R rootCtx rootCtx :=
  ⟨.cons (builtinTable_like R) .nil, trivial⟩

theorem withOwnStore_like {m m' : M Str} (h : MLike R Eq m m') {style : Style} (hR : style = dollar → Compat R) :
    MLike R (QueryLike R) (withOwnStore style m) (withOwnStore style m') := by
  intro s s' hs
  have h0 : StLike R { s with store := .new style, usedA := [], usedF := [] }
      { s' with store := .new style, usedA := [], usedF := [] } :=
    ⟨⟨rfl, .nil, .nil⟩, fun hd => hR (by simpa [Store.new] using hd), rfl, rfl, hs.heap, hs.log⟩
  obtain ⟨h1, h2⟩ := h _ _ h0
  unfold withOwnStore
  dsimp only
  have hb : ∀ t t' : St, StLike R t t' → StLike R { t with store := s.store, usedA := s.usedA, usedF := s.usedF }
      { t' with store := s'.store, usedA := s'.usedA, usedF := s'.usedF } := fun t t' ht =>
    ⟨hs.store, hs.compat, hs.usedA, hs.usedF, ht.heap, ht.log⟩
  rcases h1.cases with ⟨a, b, e, e', hq⟩ | ⟨x, e, e'⟩ | ⟨x, e, e'⟩ | ⟨e, e'⟩ <;> rw [e, e'] <;> dsimp only
  · exact ⟨⟨hq, h2.store.args⟩, hb _ _ h2⟩
  · exact ⟨rfl, hb _ _ h2⟩
  · exact ⟨rfl, hb _ _ h2⟩
  · exact ⟨trivial, hb _ _ h2⟩

theorem runProg_like (L : GoLib) {rec rec' : Rec} (hr : RecLike R rec rec') {c c' : Ctx} (hc : CtxLike R c c') :
    ∀ (p p' : Prog), SameCode R p p' → MLike R Eq (runProg L rec c p) (runProg L rec' c' p')
  | .ret s, p', h => by
    cases p' <;> simp only [SameCode] at h
    subst h; exact mlike_pure rfl
  | .fail e, p', h => by
    cases p' <;> simp only [SameCode] at h
    subst h; exact mlike_err _
  | .panic m b, p', h => by
    cases p' <;> simp only [SameCode] at h
    obtain ⟨rfl, rfl⟩ := h; exact mlike_panic _
  | .commit v k, p', h => by
    cases p' <;> simp only [SameCode] at h
    rw [runProg, runProg]
    exact (commitArg_like h.1).bindEq fun t => runProg_like L hr hc (k t) _ (h.2 t)
  | .args k, p', h => by
    cases p' <;> simp only [SameCode] at h
    rw [runProg, runProg]
    intro s s' hs
    exact runProg_like L hr hc (k s.store.args) _ (h _ _ hs.store.args) s s' hs
  | .build b k, p', h => by
    cases p' <;> simp only [SameCode] at h
    rw [runProg, runProg]
    exact resume_like (hr _ _ (.build _) (.build _) hc h.1) (k := fun r => runProg L rec c (k r)) fun r =>
      runProg_like L hr hc (k r) _ (h.2 r)
  | .buildWith fm b k, p', h => by
    cases p' <;> simp only [SameCode] at h
    rw [runProg, runProg]
    have hf := contextWithFuncs_like L hc h.1
    revert hf
    cases contextWithFuncs L c fm with
    | error e =>
      intro hf
      cases hc' : contextWithFuncs L c' _ with
      | ok _ => rw [hc'] at hf; exact hf.elim
      | error e' =>
        rw [hc'] at hf
        cases hf
        exact runProg_like L hr hc (k _) _ (h.2.2 _)
    | ok d =>
      intro hf
      cases hc' : contextWithFuncs L c' _ with
      | error _ => rw [hc'] at hf; exact hf.elim
      | ok d' =>
        rw [hc'] at hf
        exact resume_like (hr _ _ (.build _) (.build _) hf h.2.1) (k := fun r => runProg L rec c (k r)) fun r =>
          runProg_like L hr hc (k r) _ (h.2.2 r)
  | .query style b k, p', h => by
    cases p' <;> simp only [SameCode] at h
    obtain ⟨rfl, hR, hb, he, hk⟩ := h
    rw [runProg, runProg, newContext_eq]
    dsimp only
    refine (withOwnStore_like (hr _ _ (.build _) (.build _) (rootCtx_like R) hb) hR).bind fun r r' hrr => ?_
    cases r with
    | error e =>
      cases r' with
      | error e' => cases hrr; exact runProg_like L hr hc _ _ (he e)
      | ok _ => exact hrr.elim
    | ok a =>
      cases r' with
      | error _ => exact hrr.elim
      | ok a' =>
        obtain ⟨t, vs⟩ := a
        obtain ⟨t', vs'⟩ := a'
        obtain ⟨h1, h2⟩ := hrr
        dsimp only at h1 h2
        subst h1
        exact runProg_like L hr hc _ _ (hk t vs vs' h2)

theorem signature_like {f f' : FuncInfo} (h : InfoLike R f f') :
    joinSignatureOk f = joinSignatureOk f' ∧ (∀ n, f.arityOk n = f'.arityOk n) ∧ (∀ n, f.paramTypes n = f'.paramTypes n) := by
  obtain ⟨name, ins, v, outs, body⟩ := f
  obtain ⟨name', ins', v', outs', body'⟩ := f'
  obtain ⟨h1, h2, h3, h4, -⟩ := h
  dsimp only at h1 h2 h3 h4
  subst h1; subst h2; subst h3; subst h4
  exact ⟨rfl, fun _ => rfl, fun _ => rfl⟩

theorem nilContext_like : CtxLike R newEmptyContext.withNilFragment newEmptyContext.withNilFragment :=
  ⟨.cons .nil .nil, .nil, .nil⟩

theorem joinCompatible_like {rec rec' : Rec} (hr : RecLike R rec rec') {f f' : FuncInfo} (h : InfoLike R f f') :
    MLike R Eq (joinCompatible rec f) (joinCompatible rec' f') := by
  intro s s' hs
  unfold joinCompatible
  rw [(signature_like h).1]
  split
  · exact ⟨rfl, hs⟩
  · have h0 : StLike R { s with store := .new question, usedA := [], usedF := [] }
        { s' with store := .new question, usedA := [], usedF := [] } :=
      ⟨⟨rfl, .nil, .nil⟩, by intro h; simp [Store.new, question, dollar] at h, rfl, rfl, hs.heap, hs.log⟩
    obtain ⟨h1, h2⟩ := hr _ _ (.call f [.int 0]) (.call f' [.int 0]) nilContext_like ⟨h, rfl⟩ _ _ h0
    dsimp only
    have hb : ∀ t t' : St, StLike R t t' → StLike R { t with store := s.store, usedA := s.usedA, usedF := s.usedF }
        { t' with store := s'.store, usedA := s'.usedA, usedF := s'.usedF } := fun t t' ht =>
      ⟨hs.store, hs.compat, hs.usedA, hs.usedF, ht.heap, ht.log⟩
    rcases h1.cases with ⟨a, b, e, e', hq⟩ | ⟨x, e, e'⟩ | ⟨x, e, e'⟩ | ⟨e, e'⟩ <;> rw [e, e'] <;> dsimp only <;>
      exact ⟨by simp [OutLike], hb _ _ h2⟩

theorem joinCheck_like {rec rec' : Rec} (hr : RecLike R rec rec') {c c' : Ctx} (hc : CtxLike R c c') (es : List Expr) :
    MLike R Eq (joinCheck rec c es) (joinCheck rec' c' es) := by
  induction es with
  | nil => exact mlike_pure rfl
  | cons e es ih =>
    cases e with
    | func name =>
      rw [joinCheck, joinCheck]
      rcases fn_like hc name with ⟨h1, h2⟩ | ⟨f, f', h1, h2, h3⟩
      · rw [h1, h2]; exact mlike_err _
      · rw [h1, h2]
        refine (joinCompatible_like hr h3).bindEq fun ok => ?_
        cases ok with
        | true => exact ih.bindEq fun n => mlike_pure rfl
        | false => exact mlike_err _
    | _ => exact ih

theorem joinLoop_like {rec rec' : Rec} (hr : RecLike R rec rec') {c c' : Ctx} (hc : CtxLike R c c') (es : List Expr)
    (sep : Str) (from_ to : Int) (n : Nat) (i : Int) (acc : Str) :
    MLike R Eq (joinLoop rec c es sep from_ to n i acc) (joinLoop rec' c' es sep from_ to n i acc) := by
  induction n generalizing i acc with
  | zero => exact mlike_oof
  | succ n ih =>
    intro s s' hs
    unfold joinLoop
    obtain ⟨h1, h2⟩ := hr _ _ (.clause (joinInst es i)) (.clause (joinInst es i)) hc rfl s s' hs
    rcases h1.cases with ⟨a, b, e, e', hq⟩ | ⟨x, e, e'⟩ | ⟨x, e, e'⟩ | ⟨e, e'⟩ <;> rw [e, e'] <;> dsimp only
    · subst hq
      split
      · exact ⟨rfl, h2⟩
      · exact ih _ _ _ _ h2
    · split
      · split
        · exact ⟨rfl, h2⟩
        · exact ⟨rfl, h2⟩
      · exact ⟨rfl, h2⟩
    all_goals exact ⟨by simp [OutLike], h2⟩

theorem funcJoin_like (L : GoLib) {rec rec' : Rec} (hr : RecLike R rec rec') (fuel : Nat) {c c' : Ctx} (hc : CtxLike R c c')
    (tmpl sep : Str) (is : List Int) :
    MLike R Eq (funcJoin L rec fuel c tmpl sep is) (funcJoin L rec' fuel c' tmpl sep is) := by
  unfold funcJoin
  split
  · exact mlike_err _
  · dsimp only
    split
    · exact mlike_err _
    · cases parse L tmpl with
      | error e => exact mlike_err _
      | ok es =>
        refine (joinCheck_like hr hc es).bindEq fun n => ?_
        split
        · exact mlike_err _
        · exact joinLoop_like hr hc _ _ _ _ _ _ _

theorem callBody_like (L : GoLib) {rec rec' : Rec} (hr : RecLike R rec rec') (fuel : Nat) {c c' : Ctx} (hc : CtxLike R c c')
    {body body' : Body} (h : SameBody R body body') (vs : List ArgVal) :
    MLike R Eq (callBody L rec fuel c body vs) (callBody L rec' fuel c' body' vs) := by
  cases body <;> cases body' <;> simp only [SameBody] at h
  · subst h
    rename_i b
    cases b with
    | arg => exact (mustFragment_like hc).bind fun f f' hf => argBuild_like hf _
    | fragment => exact (mustFragment_like hc).bind fun f f' hf => fragmentBuild_like hr hc hf _
    | join => exact funcJoin_like L hr fuel hc _ _ _
  · exact runProg_like L hr hc _ _ (h vs)

theorem evalCall_like (L : GoLib) {rec rec' : Rec} (hr : RecLike R rec rec') (fuel : Nat) {c c' : Ctx} (hc : CtxLike R c c')
    {f f' : FuncInfo} (h : InfoLike R f f') (as : List CallArg) :
    MLike R Eq (evalCall L rec fuel c f as) (evalCall L rec' fuel c' f' as) := by
  obtain ⟨-, h2, h3⟩ := signature_like h
  unfold evalCall
  rw [h2, h3, h.name, h.outs]
  split
  · exact mlike_err _
  · dsimp only
    cases evalArgs (f'.paramTypes as.length) as with
    | err e => exact mlike_err _
    | panic p => exact mlike_panic _
    | oof => exact mlike_oof
    | ok vs =>
      refine MLike.wrapErr (MLike.safe ?_) _
      split
      · exact (callBody_like L hr fuel hc h.body vs).bindEq fun s => mlike_pure rfl
      · exact mlike_panic _

/-! ## Clauses and fragments -/

theorem evalExpr_like (L : GoLib) {rec rec' : Rec} (hr : RecLike R rec rec') (fuel : Nat) {c c' : Ctx} (hc : CtxLike R c c')
    (e : Expr) : MLike R Eq (evalExpr L rec fuel c e) (evalExpr L rec' fuel c' e) := by
  cases e with
  | plain t => exact mlike_pure rfl
  | bindVar style i =>
    refine (mustFragment_like hc).bind fun f f' hf => ?_
    rw [hf.args.length]
    cases position i f'.args.length with
    | none => exact mlike_err _
    | some _ => exact argBuild_like hf i
  | call name as =>
    show MLike R Eq (evalFunction L rec fuel c name as) (evalFunction L rec' fuel c' name as)
    unfold evalFunction
    rcases fn_like hc name with ⟨h1, h2⟩ | ⟨f, f', h1, h2, h3⟩
    · rw [h1, h2]; exact mlike_err _
    · rw [h1, h2]; exact evalCall_like L hr fuel hc h3 as
  | func name => exact mlike_err _

theorem buildClause_like (L : GoLib) {rec rec' : Rec} (hr : RecLike R rec rec') (fuel : Nat) {c c' : Ctx}
    (hc : CtxLike R c c') (es : List Expr) : MLike R Eq (buildClause L rec fuel c es) (buildClause L rec' fuel c' es) := by
  induction es with
  | nil => exact mlike_pure rfl
  | cons e es ih => exact (evalExpr_like L hr fuel hc e).bindEq fun s => ih.bindEq fun t => mlike_pure rfl

theorem sameQF_parts {f g : Fragment} (h : SameQF R f g) :
    f.raw = g.raw ∧ Pointwise R f.args g.args ∧ Pointwise (SameQ R) f.frags g.frags ∧ f.pre = g.pre ∧ f.suf = g.suf := by
  cases f; cases g
  rw [SameQF] at h
  exact ⟨h.1, h.2.1, sameQL_pointwise.1 h.2.2.1, h.2.2.2⟩

theorem buildFragment_like (L : GoLib) {rec rec' : Rec} (hr : RecLike R rec rec') (fuel : Nat) {c c' : Ctx}
    (hc : CtxLike R c c') {f g : Fragment} (h : SameQF R f g) :
    MLike R Eq (buildFragment L rec fuel c f) (buildFragment L rec' fuel c' g) := by
  obtain ⟨h1, h2, h3, h4, h5⟩ := sameQF_parts h
  have hc2 : CtxLike R (c.withFragment f) (c'.withFragment g) := ⟨hc.funcs, h2, h3⟩
  have hb : MLike R Eq (buildBody L rec fuel (c.withFragment f) f) (buildBody L rec' fuel (c'.withFragment g) g) := by
    unfold buildBody
    rw [h1, h4, h5]
    cases parse L g.raw with
    | error e => exact mlike_err _
    | ok es =>
      refine ((buildClause_like L hr fuel hc2 es).wrapErr _).bindEq fun body => ?_
      intro s s' hs
      dsimp only
      rw [checkUsage_like (f := ⟨f.args, f.frags⟩) (f' := ⟨g.args, g.frags⟩) ⟨h2, h3⟩ hs]
      cases checkUsage ⟨g.args, g.frags⟩ s' with
      | some e => exact ⟨rfl, hs⟩
      | none => exact ⟨rfl, hs⟩
  intro s s' hs
  obtain ⟨r1, r2⟩ := hb { s with usedA := [], usedF := [] } { s' with usedA := [], usedF := [] }
    ⟨hs.store, hs.compat, rfl, rfl, hs.heap, hs.log⟩
  exact ⟨r1, r2.store, r2.compat, hs.usedA, hs.usedF, r2.heap, r2.log⟩

/-! ## Query builders -/

theorem getQB_like (r : Nat) : MLike R (QBLike R) (getQB r) (getQB r) := by
  intro s s' hs
  unfold getQB
  rcases hs.heap.get r with ⟨h1, h2⟩ | ⟨a, b, h1, h2, h3⟩ <;> rw [h1, h2]
  · exact ⟨rfl, hs⟩
  · exact ⟨h3, hs⟩

theorem modifyQB_like (r : Nat) {f g : QB → QB} (h : ∀ b b', QBLike R b b' → QBLike R (f b) (g b')) :
    MLike R Eq (modifyQB r f) (modifyQB r g) := by
  intro s s' hs
  unfold modifyQB
  rcases hs.heap.get r with ⟨h1, h2⟩ | ⟨a, b, h1, h2, h3⟩ <;> rw [h1, h2]
  · exact ⟨rfl, hs⟩
  · exact ⟨rfl, hs.store, hs.compat, hs.usedA, hs.usedF, pointwise_set hs.heap (h _ _ h3) r, hs.log⟩

theorem collectM_like {S : α → β → Prop} {f : α → M (Option Str)} {g : β → M (Option Str)}
    (hf : ∀ a b, S a b → MLike R Eq (f a) (g b)) {l : List α} {m : List β} (h : Pointwise S l m) :
    MLike R Eq (collectM f l) (collectM g m) := by
  induction h with
  | nil => exact mlike_pure rfl
  | cons h _ ih => exact (hf _ _ h).bindEq fun o => ih.bindEq fun l => mlike_pure rfl

theorem buildCTEs_like {rec rec' : Rec} (hr : RecLike R rec rec') {c c' : Ctx} (hc : CtxLike R c c') {b b' : QB}
    (h : QBLike R b b') (dep : Deps) : MLike R Eq (buildCTEs rec c b dep) (buildCTEs rec' c' b' dep) := by
  unfold buildCTEs
  refine (collectM_like ?_ h.same.ctes).bindEq fun clauses => mlike_pure rfl
  intro x y hxy
  rw [hxy.1]
  split
  · exact mlike_pure rfl
  · exact ((hr _ _ (.build _) (.build _) hc hxy.2.2).wrapErr _).bindEq fun q => mlike_pure rfl

theorem buildFrom_like (L : GoLib) {rec rec' : Rec} (hr : RecLike R rec rec') (fuel : Nat) {c c' : Ctx}
    (hc : CtxLike R c c') {b b' : QB} (h : QBLike R b b') (dep : Deps) :
    MLike R Eq (buildFrom L rec fuel c b dep) (buildFrom L rec' fuel c' b' dep) := by
  unfold buildFrom
  refine (collectM_like ?_ (SameQB.tableList h.same)).bindEq fun clauses => mlike_pure rfl
  intro x y hxy
  rw [hxy.1, hxy.2.1, h.same.distinct]
  split
  · exact mlike_pure rfl
  · refine (MLike.wrapErr ?_ _).bindEq fun q => mlike_pure rfl
    have h3 := hxy.2.2
    unfold rowBuilder at h3
    cases hx : x.fragment <;> cases hy : y.fragment <;> rw [hx, hy] at h3 <;> simp only [SameQ] at h3
    · exact mlike_pure rfl
    · exact buildFragment_like L hr fuel hc h3

theorem orderItems_like (distinct : Bool) {os os' : List OrderItem} (h : Pointwise (SameOrder R) os os') (i : Nat) :
    Pointwise (SameQ R) (orderItems distinct i os).1 (orderItems distinct i os').1 ∧
    Pointwise (SameQ R) (orderItems distinct i os).2.1 (orderItems distinct i os').2.1 ∧
    (orderItems distinct i os).2.2 = (orderItems distinct i os').2.2 := by
  induction h generalizing i with
  | nil => exact ⟨.nil, .nil, rfl⟩
  | @cons o o' _ _ h _ ih =>
    obtain ⟨i1, i2, i3⟩ := ih (i + 1)
    unfold orderItems
    rw [h.1]
    cases orderNames[o'.order]? with
    | none => exact ⟨i1, i2, by dsimp only; rw [i3]⟩
    | some name =>
      cases distinct with
      | false =>
        refine ⟨.cons ?_ i1, i2, i3⟩
        simp [SameQ, SameQF, SameQL, Fragment.Ff, h.2]; exact .nil
      | true =>
        refine ⟨.cons ?_ i1, .cons ?_ i2, i3⟩
        · simp [SameQ, SameQF, SameQL, Fragment.F]; exact .nil
        · simp [SameQ, SameQF, SameQL, Fragment.Ff, h.2]; exact .nil

theorem sameQF_F (raw : Str) : SameQF R (.F raw) (.F raw) := by
  simp [SameQF, SameQL, Fragment.F]; exact .nil

theorem buildOrders_like (L : GoLib) {rec rec' : Rec} (hr : RecLike R rec rec') (fuel : Nat) {c c' : Ctx}
    (hc : CtxLike R c c') (r : Nat) : MLike R Eq (buildOrders L rec fuel c r) (buildOrders L rec' fuel c' r) := by
  unfold buildOrders
  refine (getQB_like r).bind fun b b' h => ?_
  rw [h.same.distinct]
  obtain ⟨h1, h2, h3⟩ := orderItems_like b'.distinct h.same.orders 0
  dsimp only
  refine (modifyQB_like r ?_).bindEq fun _ => ?_
  · intro d d' hd
    obtain ⟨hd, q1, q2⟩ := hd
    refine ⟨⟨hd.ctes, hd.cells, hd.tables, hd.tablesDict, hd.selects,
      sameQF_appendFragments hd.touches (sameQL_pointwise.2 h2), hd.conditions, hd.orders, hd.groupbys, hd.distinct,
      hd.limit, hd.offset, hd.unions, ?_⟩, q1, q2⟩
    dsimp only
    rw [hd.errors, h3]
  · exact buildFragment_like L hr fuel hc
      (sameQF_appendFragments (sameQF_withPrefix (sameQF_F _) _) (sameQL_pointwise.2 h1))

theorem buildSelects_like (L : GoLib) {rec rec' : Rec} (hr : RecLike R rec rec') (fuel : Nat) {c c' : Ctx}
    (hc : CtxLike R c c') (r : Nat) : MLike R Eq (buildSelects L rec fuel c r) (buildSelects L rec' fuel c' r) := by
  unfold buildSelects
  refine (modifyQB_like r ?_).bindEq fun _ => ?_
  · intro d d' hd
    obtain ⟨hd, q1, q2⟩ := hd
    refine ⟨⟨hd.ctes, hd.cells, hd.tables, hd.tablesDict, ?_, hd.touches, hd.conditions, hd.orders, hd.groupbys,
      hd.distinct, hd.limit, hd.offset, hd.unions, hd.errors⟩, q1, q2⟩
    dsimp only
    rw [hd.distinct]
    exact sameQF_withPrefix hd.selects _
  · refine (getQB_like r).bind fun b b' h => ?_
    refine (buildFragment_like L hr fuel hc h.same.selects).bindEq fun sel => ?_
    refine (getQB_like r).bind fun b b' h => ?_
    refine (buildFragment_like L hr fuel hc h.same.touches).bindEq fun touches => ?_
    split
    · exact mlike_err _
    · exact mlike_pure rfl

theorem buildUnion_like {rec rec' : Rec} (hr : RecLike R rec rec') {c c' : Ctx} (hc : CtxLike R c c')
    {us us' : List Builder} (h : Pointwise (SameQ R) us us') : MLike R Eq (buildUnion rec c us) (buildUnion rec' c' us') := by
  unfold buildUnion
  refine (collectM_like ?_ h).bindEq fun clauses => mlike_pure rfl
  intro x y hxy
  exact (hr _ _ (.build _) (.build _) hc hxy).bindEq fun q => mlike_pure rfl

theorem buildInternal_like (L : GoLib) {rec rec' : Rec} (hr : RecLike R rec rec') (fuel : Nat) {c c' : Ctx}
    (hc : CtxLike R c c') (r : Nat) : MLike R Eq (buildInternal L rec fuel c r) (buildInternal L rec' fuel c' r) := by
  unfold buildInternal
  refine (getQB_like r).bind fun b b' h => ?_
  rw [h.same.errors, SameQB.deps h.same]
  split
  · exact mlike_err _
  refine mlike_ofOut.bindEq fun dep => ?_
  refine (buildCTEs_like hr hc h dep).bindEq fun sq => ?_
  refine (getQB_like r).bind fun b b' h => ?_
  refine (buildFrom_like L hr fuel hc h dep).bindEq fun from_ => ?_
  refine (getQB_like r).bind fun b b' h => ?_
  refine (buildFragment_like L hr fuel hc h.same.conditions).bindEq fun where_ => ?_
  refine (getQB_like r).bind fun b b' h => ?_
  refine (buildFragment_like L hr fuel hc h.same.groupbys).bindEq fun groupby => ?_
  refine (buildOrders_like L hr fuel hc r).bindEq fun order => ?_
  refine (getQB_like r).bind fun b b' h => ?_
  rw [h.same.limit, h.same.offset]
  dsimp only
  refine (buildSelects_like L hr fuel hc r).bindEq fun sel => ?_
  refine (getQB_like r).bind fun b b' h => ?_
  have hu := sameQL_pointwise.1 h.same.unions
  rw [hu.length]
  refine MLike.bindEq ?_ fun query => ?_
  · split
    · exact (buildUnion_like hr hc hu).bindEq fun u => mlike_pure rfl
    · exact mlike_pure rfl
  refine (getQB_like r).bind fun b b' h => ?_
  rw [h.quiet, h.quiet']
  exact (mlike_pure rfl).bindEq fun _ => mlike_pure rfl

/-! ## Everything -/

theorem buildBuilder_like (L : GoLib) {rec rec' : Rec} (hr : RecLike R rec rec') (fuel : Nat) {c c' : Ctx}
    (hc : CtxLike R c c') {b b' : Builder} (h : SameQ R b b') :
    MLike R Eq (buildBuilder L rec fuel c b) (buildBuilder L rec' fuel c' b') := by
  cases b <;> cases b' <;> simp only [SameQ] at h
  case nil => exact mlike_panic _
  case nilFrag => exact mlike_pure rfl
  case frag => exact buildFragment_like L hr fuel hc h
  case nilColumn => exact mlike_panic _
  case columnNilFrag => exact mlike_pure rfl
  case column => exact buildFragment_like L hr fuel hc h.2
  case table => subst h; exact mlike_pure rfl
  case aliased => obtain ⟨rfl, rfl⟩ := h; exact mlike_pure rfl
  case nilQb => exact mlike_pure rfl
  case qb => subst h; exact buildInternal_like L hr fuel hc _
  case custom => exact runProg_like L hr hc _ _ h

theorem run_like (L : GoLib) (n : Nat) : RecLike R (run L n) (run L n) := by
  induction n with
  | zero => exact fun _ _ _ _ _ _ => mlike_oof
  | succ n ih =>
    intro c c' t t' hc ht
    show MLike R Eq (step L (run L n) n c t) (step L (run L n) n c' t')
    unfold step
    cases t <;> cases t' <;> simp only [TaskLike] at ht
    · exact buildBuilder_like L ih n hc ht
    · subst ht; exact buildClause_like L ih n hc _
    · obtain ⟨hf, rfl⟩ := ht; exact evalCall_like L ih n hc hf _

end

end Sqlf
