import Verif.Proofs.Swap
import Verif.Proofs.Fuel
/-!
# Builds of builders with replaced parts

A build of a builder that stops is followed, step by step, by builds of the builder with replaced parts, with as much
fuel as needed: the replacing builders may need more than the replaced ones.
-/

namespace Sqlf

open Spec

section
variable {E : Builder → Builder → Prop}

structure InfoSwap (E : Builder → Builder → Prop) (f f' : FuncInfo) : Prop where
  name : f.name = f'.name
  ins : f.ins = f'.ins
  variadic : f.variadic = f'.variadic
  outs : f.outs = f'.outs
  body : SwappedBody E f.body f'.body

abbrev LayerSwap (E : Builder → Builder → Prop) : List (Str × FuncInfo) → List (Str × FuncInfo) → Prop :=
  Pointwise fun p p' => p.1 = p'.1 ∧ InfoSwap E p.2 p'.2

structure FrameSwap (E : Builder → Builder → Prop) (f f' : Frame) : Prop where
  args : f.args = f'.args
  frags : Pointwise (Swapped E) f.frags f'.frags

def FrameSwap? (E : Builder → Builder → Prop) : Option Frame → Option Frame → Prop
  | none, none => True
  | some f, some f' => FrameSwap E f f'
  | _, _ => False

structure CtxSwap (E : Builder → Builder → Prop) (c c' : Ctx) : Prop where
  funcs : Pointwise (LayerSwap E) c.funcs c'.funcs
  frame : FrameSwap? E c.frame c'.frame

inductive TaskSwap (E : Builder → Builder → Prop) : Task → Task → Prop
  | build {b b' : Builder} (h : Swapped E b b') : TaskSwap E (.build b) (.build b')
  | clause (es : List Expr) : TaskSwap E (.clause es) (.clause es)
  | call {f f' : FuncInfo} (h : InfoSwap E f f') (as : List CallArg) : TaskSwap E (.call f as) (.call f' as)

structure StSwap (E : Builder → Builder → Prop) (s s' : St) : Prop where
  store : s.store = s'.store
  usedA : s.usedA = s'.usedA
  usedF : s.usedF = s'.usedF
  heap : Pointwise (QBSwap E) s.heap s'.heap
  log : s.log = s'.log

/-- From some fuel on the result is `r`. -/
def SettlesTo (F : Nat → M β) (s : St) (r : Out β × St) : Prop := ∃ N, ∀ n, N ≤ n → F n s = r

/-- If `m` stops, so does `F`, with the like. -/
def MSwap (E : Builder → Builder → Prop) (Q : α → β → Prop) (m : M α) (F : Nat → M β) : Prop :=
  ∀ s s', StSwap E s s' → (m s).1 ≠ .oof → ∃ r, SettlesTo F s' r ∧ OutLike Q (m s).1 r.1 ∧ StSwap E (m s).2 r.2

def RecSwap (E : Builder → Builder → Prop) (rec : Rec) (recs : Nat → Rec) : Prop :=
  ∀ c c' t t', CtxSwap E c c' → TaskSwap E t t' → MSwap E Eq (rec c t) (fun n => recs n c' t')

/-! ## The monad -/

theorem settles_const (m : M β) (s : St) : SettlesTo (fun _ => m) s (m s) := ⟨0, fun _ _ => rfl⟩

theorem mswap_const {Q : α → β → Prop} {m : M α} {m' : M β}
    (h : ∀ s s', StSwap E s s' → OutLike Q (m s).1 (m' s').1 ∧ StSwap E (m s).2 (m' s').2) : MSwap E Q m (fun _ => m') :=
  fun s s' hs _ => ⟨_, settles_const m' s', (h s s' hs).1, (h s s' hs).2⟩

theorem mswap_pure {Q : α → β → Prop} {a : α} {b : β} (h : Q a b) : MSwap E Q (M.pure a) (fun _ => M.pure b) :=
  mswap_const fun _ _ hs => ⟨h, hs⟩

theorem mswap_err {Q : α → β → Prop} (e : Err) : MSwap E Q (M.err e) (fun _ => M.err e) :=
  mswap_const fun _ _ hs => ⟨rfl, hs⟩

theorem mswap_panic {Q : α → β → Prop} (p : Panic) : MSwap E Q (M.panic p) (fun _ => M.panic p) :=
  mswap_const fun _ _ hs => ⟨rfl, hs⟩

theorem mswap_oof {Q : α → β → Prop} {F : Nat → M β} : MSwap E Q (fun s => (.oof, s)) F := fun _ _ _ h => (h rfl).elim

theorem mswap_ofOut {o : Out α} : MSwap E Eq (M.ofOut o) (fun _ => M.ofOut o) := mswap_const fun _ _ hs => by
  refine ⟨?_, hs⟩
  show OutLike Eq o o
  cases o <;> simp [OutLike]

/-- Two outcomes that agree, by cases; neither is out of fuel. -/
theorem OutLike.cases' {Q : α → β → Prop} {r : Out α × St} {r' : Out β × St} (h : OutLike Q r.1 r'.1) (hne : r.1 ≠ .oof) :
    (∃ a b, r = (.ok a, r.2) ∧ r' = (.ok b, r'.2) ∧ Q a b) ∨ (∃ e, r = (.err e, r.2) ∧ r' = (.err e, r'.2)) ∨
      (∃ p, r = (.panic p, r.2) ∧ r' = (.panic p, r'.2)) := by
  rcases h.cases with h | h | h | ⟨h, -⟩
  · exact .inl h
  · exact .inr (.inl h)
  · exact .inr (.inr h)
  · rw [h] at hne; exact (hne rfl).elim

theorem MSwap.bind {Q : α → β → Prop} {P : γ → δ → Prop} {m : M α} {F : Nat → M β} {k : α → M γ} {G : Nat → β → M δ}
    (h : MSwap E Q m F) (hk : ∀ a b, Q a b → MSwap E P (k a) (fun n => G n b)) :
    MSwap E P (M.bind m k) (fun n => M.bind (F n) (G n)) := by
  intro s s' hs hne
  have hne1 : (m s).1 ≠ .oof := by
    intro h0
    apply hne
    unfold M.bind
    rw [show m s = (.oof, (m s).2) from by rw [← h0]]
  obtain ⟨r, ⟨N, hN⟩, h1, h2⟩ := h s s' hs hne1
  unfold M.bind at hne ⊢
  rcases h1.cases' hne1 with ⟨a, b, e, e', hq⟩ | ⟨x, e, e'⟩ | ⟨x, e, e'⟩
  · rw [e] at hne ⊢
    obtain ⟨r2, ⟨N2, hN2⟩, h3, h4⟩ := hk a b hq _ _ h2 hne
    refine ⟨r2, ⟨max N N2, fun n hn => ?_⟩, h3, h4⟩
    dsimp only
    rw [hN n (by omega), e']
    exact hN2 n (by omega)
  · rw [e]
    refine ⟨(.err x, r.2), ⟨N, fun n hn => ?_⟩, rfl, h2⟩
    dsimp only
    rw [hN n hn, e']
  · rw [e]
    refine ⟨(.panic x, r.2), ⟨N, fun n hn => ?_⟩, rfl, h2⟩
    dsimp only
    rw [hN n hn, e']

theorem MSwap.bindEq {P : γ → δ → Prop} {m : M α} {F : Nat → M α} {k : α → M γ} {G : Nat → α → M δ}
    (h : MSwap E Eq m F) (hk : ∀ a, MSwap E P (k a) (fun n => G n a)) :
    MSwap E P (M.bind m k) (fun n => M.bind (F n) (G n)) :=
  h.bind fun a b e => by subst e; exact hk a

/-- What is made of an outcome. -/
theorem MSwap.after {Q : α → β → Prop} {P : γ → δ → Prop} {m : M α} {F : Nat → M β} (h : MSwap E Q m F)
    {H : Out α × St → Out γ × St} {K : Nat → Out β × St → Out δ × St} (ho : ∀ s, (H (.oof, s)).1 = .oof)
    (hk : ∀ r r', OutLike Q r.1 r'.1 → StSwap E r.2 r'.2 → r.1 ≠ .oof → (H r).1 ≠ .oof →
      ∃ r2, (∃ N, ∀ n, N ≤ n → K n r' = r2) ∧ OutLike P (H r).1 r2.1 ∧ StSwap E (H r).2 r2.2) :
    MSwap E P (fun s => H (m s)) (fun n s => K n (F n s)) := by
  intro s s' hs hne
  have hne1 : (m s).1 ≠ .oof := by
    intro h0
    apply hne
    show (H (m s)).1 = .oof
    rw [show m s = (.oof, (m s).2) from by rw [← h0]]
    exact ho _
  obtain ⟨r, ⟨N, hN⟩, h1, h2⟩ := h s s' hs hne1
  obtain ⟨r2, ⟨N2, hN2⟩, h3⟩ := hk _ _ h1 h2 hne1 hne
  refine ⟨r2, ⟨max N N2, fun n hn => ?_⟩, h3⟩
  show K n (F n s') = r2
  rw [hN n (by omega)]
  exact hN2 n (by omega)

theorem MSwap.wrapErr {Q : α → β → Prop} {m : M α} {F : Nat → M β} (h : MSwap E Q m F) (w : Str) :
    MSwap E Q (M.wrapErr w m) (fun n => M.wrapErr w (F n)) := by
  refine h.after (H := fun r => match r with | (.err e, s') => (.err (.wrap w e), s') | r => r)
    (K := fun _ r => match r with | (.err e, s') => (.err (.wrap w e), s') | r => r) (fun _ => rfl) ?_
  intro r r' h1 h2 hne _
  refine ⟨_, ⟨0, fun _ _ => rfl⟩, ?_⟩
  rcases h1.cases' hne with ⟨a, b, e, e', hq⟩ | ⟨x, e, e'⟩ | ⟨x, e, e'⟩ <;> rw [e, e'] <;> dsimp only
  · exact ⟨hq, h2⟩
  all_goals exact ⟨by simp [OutLike], h2⟩

theorem MSwap.safe {m : M Str} {F : Nat → M Str} (h : MSwap E Eq m F) : MSwap E Eq (safeCall m) (fun n => safeCall (F n)) := by
  refine h.after (H := fun r => match r with | (.panic p, s') => (.err p.toErr, s') | r => r)
    (K := fun _ r => match r with | (.panic p, s') => (.err p.toErr, s') | r => r) (fun _ => rfl) ?_
  intro r r' h1 h2 hne _
  refine ⟨_, ⟨0, fun _ _ => rfl⟩, ?_⟩
  rcases h1.cases' hne with ⟨a, b, e, e', hq⟩ | ⟨x, e, e'⟩ | ⟨x, e, e'⟩ <;> rw [e, e'] <;> dsimp only
  · exact ⟨hq, h2⟩
  all_goals exact ⟨by simp [OutLike], h2⟩

/-! ## Arguments and properties -/

theorem commitArg_swap (v : Val) : MSwap E Eq (commitArg v) (fun _ => commitArg v) := mswap_const fun s s' hs => by
  unfold commitArg
  rw [hs.store]
  cases s'.store.commit v with
  | none => exact ⟨rfl, hs⟩
  | some x => exact ⟨rfl, rfl, hs.usedA, hs.usedF, hs.heap, hs.log⟩

theorem markA_swap (i : Nat) : MSwap E Eq (markA i) (fun _ => markA i) := mswap_const fun _ _ hs =>
  ⟨rfl, hs.store, by show i :: _ = i :: _; rw [hs.usedA], hs.usedF, hs.heap, hs.log⟩

theorem markF_swap (i : Nat) : MSwap E Eq (markF i) (fun _ => markF i) := mswap_const fun _ _ hs =>
  ⟨rfl, hs.store, hs.usedA, by show i :: _ = i :: _; rw [hs.usedF], hs.heap, hs.log⟩

theorem mustFragment_swap {c c' : Ctx} (h : CtxSwap E c c') :
    MSwap E (FrameSwap E) (mustFragment c) (fun _ => mustFragment c') := by
  have := h.frame
  unfold mustFragment
  cases hf : c.frame <;> cases hf' : c'.frame <;> rw [hf, hf'] at this <;> simp only [FrameSwap?] at this
  · exact mswap_err _
  · exact mswap_pure this

theorem argBuild_swap {f f' : Frame} (h : FrameSwap E f f') (i : Int) : MSwap E Eq (argBuild f i) (fun _ => argBuild f' i) := by
  unfold argBuild
  rw [h.args]
  cases position i f'.args.length with
  | none => exact mswap_err _
  | some k =>
    refine (markA_swap k).bindEq fun _ => ?_
    cases f'.args[k]? with
    | none => exact mswap_panic _
    | some v => exact commitArg_swap v

theorem fragmentBuild_swap {rec : Rec} {recs : Nat → Rec} (hr : RecSwap E rec recs) {c c' : Ctx} (hc : CtxSwap E c c')
    {f f' : Frame} (h : FrameSwap E f f') (i : Int) :
    MSwap E Eq (fragmentBuild rec c f i) (fun n => fragmentBuild (recs n) c' f' i) := by
  unfold fragmentBuild
  rw [h.frags.length]
  cases position i f'.frags.length with
  | none => exact mswap_err _
  | some k =>
    refine (markF_swap k).bindEq fun _ => ?_
    rcases h.frags.get k with ⟨h1, h2⟩ | ⟨a, b, h1, h2, h3⟩
    · rw [h1, h2]; exact mswap_panic _
    · rw [h1, h2]; exact hr _ _ _ _ hc (.build h3)

theorem checkUsage_swap {f f' : Frame} (h : FrameSwap E f f') {s s' : St} (hs : StSwap E s s') :
    checkUsage f s = checkUsage f' s' := by
  unfold checkUsage
  rw [h.args, h.frags.length, hs.usedA, hs.usedF]

/-! ## Functions -/

theorem lookupFn_swap {m m' : List (Str × FuncInfo)} (h : LayerSwap E m m') (name : Str) :
    (lookupFn m name = none ∧ lookupFn m' name = none) ∨
      ∃ f f', lookupFn m name = some f ∧ lookupFn m' name = some f' ∧ InfoSwap E f f' := by
  unfold lookupFn
  rcases h.find (p := fun p => p.1 = name) (q := fun p => p.1 = name) (fun a b hab => by rw [hab.1]) with
    ⟨h1, h2⟩ | ⟨x, y, h1, h2, h3⟩
  · exact .inl ⟨by rw [h1]; rfl, by rw [h2]; rfl⟩
  · exact .inr ⟨_, _, by rw [h1]; rfl, by rw [h2]; rfl, h3.2⟩

theorem fn_swap {c c' : Ctx} (h : CtxSwap E c c') (name : Str) :
    (c.fn name = none ∧ c'.fn name = none) ∨
      ∃ f f', c.fn name = some f ∧ c'.fn name = some f' ∧ InfoSwap E f f' := by
  unfold Ctx.fn
  have := h.funcs
  revert this
  generalize c.funcs = fs
  generalize c'.funcs = fs'
  intro h
  induction h with
  | nil => exact .inl ⟨rfl, rfl⟩
  | cons h _ ih =>
    rw [List.findSome?_cons, List.findSome?_cons]
    rcases lookupFn_swap h name with ⟨h1, h2⟩ | ⟨f, f', h1, h2, h3⟩
    · rw [h1, h2]; exact ih
    · rw [h1, h2]; exact .inr ⟨f, f', rfl, rfl, h3⟩

theorem goodFunc_swap {f f' : FuncInfo} (h : InfoSwap E f f') : goodFunc f = goodFunc f' := by
  unfold goodFunc
  rw [h.ins, h.variadic, h.outs]

theorem addValueFuncs_swap (L : GoLib) : ∀ {fm fm' : FuncMap} {out out' : List (Str × FuncInfo)}, SwappedFuncs E fm fm' →
    LayerSwap E out out' → ExceptLike (LayerSwap E) (addValueFuncs L out fm) (addValueFuncs L out' fm')
  | [], _, _, _, h, ho => by cases h; exact ho
  | (n, f) :: rest, _, out, out', h, ho => by
    cases h with
    | cons hf hs =>
      unfold addValueFuncs
      split
      · rfl
      · cases hf with
        | notFunc => rfl
        | func ins v outs hb =>
          rename_i body body'
          dsimp only
          have hl : (lookupFn out n).isSome = (lookupFn out' n).isSome := by
            rcases lookupFn_swap ho n with ⟨h1, h2⟩ | ⟨_, _, h1, h2, _⟩ <;> rw [h1, h2]; rfl
          rw [hl]
          split
          · rfl
          · have hi : InfoSwap E ⟨n, ins, v, outs, body⟩ ⟨n, ins, v, outs, body'⟩ := ⟨rfl, rfl, rfl, rfl, hb⟩
            rw [goodFunc_swap hi]
            cases goodFunc ⟨n, ins, v, outs, body'⟩ with
            | some e => rfl
            | none => exact addValueFuncs_swap L hs (ho.append (.cons ⟨rfl, hi⟩ .nil))

theorem contextWithFuncs_swap (L : GoLib) {c c' : Ctx} (hc : CtxSwap E c c') {fm fm' : FuncMap} (h : SwappedFuncs E fm fm') :
    ExceptLike (CtxSwap E) (contextWithFuncs L c fm) (contextWithFuncs L c' fm') := by
  unfold contextWithFuncs
  have := addValueFuncs_swap L h (.nil : LayerSwap E [] [])
  cases h1 : addValueFuncs L [] fm <;> cases h2 : addValueFuncs L [] fm' <;> rw [h1, h2] at this <;>
    simp only [ExceptLike] at this
  · exact this
  · exact ⟨.cons this hc.funcs, hc.frame⟩

/-- Carrying on after a build, whether it failed or not. -/
theorem resume_swap {m : M Str} {F : Nat → M Str} (h : MSwap E Eq m F) {k : Except Err Str → M Str}
    {G : Nat → Except Err Str → M Str} (hk : ∀ r, MSwap E Eq (k r) (fun n => G n r)) :
    MSwap E Eq
      (fun s => match m s with
        | (.ok t, s1) => k (.ok t) s1
        | (.err e, s1) => k (.error e) s1
        | (.panic p, s1) => (.panic p, s1)
        | (.oof, s1) => (.oof, s1))
      (fun n s => match F n s with
        | (.ok t, s1) => G n (.ok t) s1
        | (.err e, s1) => G n (.error e) s1
        | (.panic p, s1) => (.panic p, s1)
        | (.oof, s1) => (.oof, s1)) := by
  refine h.after (H := fun r => match r with
        | (.ok t, s1) => k (.ok t) s1
        | (.err e, s1) => k (.error e) s1
        | (.panic p, s1) => (.panic p, s1)
        | (.oof, s1) => (.oof, s1))
    (K := fun n r => match r with
        | (.ok t, s1) => G n (.ok t) s1
        | (.err e, s1) => G n (.error e) s1
        | (.panic p, s1) => (.panic p, s1)
        | (.oof, s1) => (.oof, s1)) (fun _ => rfl) ?_
  intro r r' h1 h2 hne hne2
  rcases h1.cases' hne with ⟨a, b, e, e', hq⟩ | ⟨x, e, e'⟩ | ⟨x, e, e'⟩
  · subst hq
    rw [e] at hne2 ⊢
    rw [e']
    exact hk _ _ _ h2 hne2
  · rw [e] at hne2 ⊢
    rw [e']
    exact hk _ _ _ h2 hne2
  · rw [e, e']
    exact ⟨_, ⟨0, fun _ _ => rfl⟩, rfl, h2⟩

theorem ctx_same (E : Builder → Builder → Prop) : CtxSwap E rootCtx rootCtx := by
  refine ⟨.refl fun _ _ => .refl fun p _ => ⟨rfl, rfl, rfl, rfl, rfl, swappedBody_refl _⟩, trivial⟩

theorem withOwnStore_swap {m : M Str} {F : Nat → M Str} (h : MSwap E Eq m F) (style : Style) :
    MSwap E Eq (withOwnStore style m) (fun n => withOwnStore style (F n)) := by
  intro s s' hs hne
  have h0 : StSwap E { s with store := .new style, usedA := [], usedF := [] }
      { s' with store := .new style, usedA := [], usedF := [] } := ⟨rfl, rfl, rfl, hs.heap, hs.log⟩
  unfold withOwnStore at hne ⊢
  dsimp only at hne ⊢
  have hne1 : (m { s with store := .new style, usedA := [], usedF := [] }).1 ≠ .oof := by
    intro h1
    apply hne
    rw [h1]
  obtain ⟨r, ⟨N, hN⟩, h1, h2⟩ := h _ _ h0 hne1
  have hb : ∀ t t' : St, StSwap E t t' → StSwap E { t with store := s.store, usedA := s.usedA, usedF := s.usedF }
      { t' with store := s'.store, usedA := s'.usedA, usedF := s'.usedF } := fun t t' ht =>
    ⟨hs.store, hs.usedA, hs.usedF, ht.heap, ht.log⟩
  rcases h1.cases' hne1 with ⟨a, b, e, e', hq⟩ | ⟨x, e, e'⟩ | ⟨x, e, e'⟩ <;> rw [e]
  · refine ⟨(.ok (.ok (b, r.2.store.args)), _), ⟨N, fun n hn => ?_⟩, ?_, hb _ _ h2⟩
    · dsimp only
      rw [hN n hn, e']
    · rw [hq, h2.store]
      rfl
  · refine ⟨(.ok (.error x), _), ⟨N, fun n hn => ?_⟩, rfl, hb _ _ h2⟩
    dsimp only
    rw [hN n hn, e']
  · refine ⟨(.panic x, _), ⟨N, fun n hn => ?_⟩, rfl, hb _ _ h2⟩
    dsimp only
    rw [hN n hn, e']

theorem runProg_swap (L : GoLib) {rec : Rec} {recs : Nat → Rec} (hr : RecSwap E rec recs) {c c' : Ctx} (hc : CtxSwap E c c') :
    ∀ (p p' : Prog), SwappedCode E p p' → MSwap E Eq (runProg L rec c p) (fun n => runProg L (recs n) c' p')
  | .ret s, p', h => by
    cases h
    simp only [runProg]
    exact mswap_pure rfl
  | .fail e, p', h => by
    cases h
    simp only [runProg]
    exact mswap_err _
  | .panic m b, p', h => by
    cases h
    simp only [runProg]
    exact mswap_panic _
  | .commit v k, p', h => by
    cases h with
    | commit _ h =>
      simp only [runProg]
      exact (commitArg_swap v).bindEq fun t => runProg_swap L hr hc (k t) _ (h t)
  | .args k, p', h => by
    cases h with
    | @args _ k' h =>
      simp only [runProg]
      intro s s' hs hne
      have := runProg_swap L hr hc (k s.store.args) _ (h _) s s' hs hne
      rw [hs.store] at this
      show ∃ r : Out Str × St, _ ∧ OutLike Eq (runProg L rec c (k s.store.args) s).1 r.1 ∧ StSwap E (runProg L rec c (k s.store.args) s).2 r.2
      rw [hs.store]
      exact this
  | .build b k, p', h => by
    cases h with
    | build hb h =>
      simp only [runProg]
      exact resume_swap (hr _ _ (.build _) (.build _) hc (.build hb)) (k := fun r => runProg L rec c (k r)) fun r =>
        runProg_swap L hr hc (k r) _ (h r)
  | .buildWith fm b k, p', h => by
    cases h with
    | @buildWith _ fm' _ _ _ _ hf hb h =>
      simp only [runProg]
      have hf := contextWithFuncs_swap L hc hf
      revert hf
      cases contextWithFuncs L c fm with
      | error e =>
        intro hf
        cases hc' : contextWithFuncs L c' fm' with
        | ok _ => rw [hc'] at hf; exact hf.elim
        | error e' =>
          rw [hc'] at hf
          cases hf
          exact runProg_swap L hr hc (k _) _ (h _)
      | ok d =>
        intro hf
        cases hc' : contextWithFuncs L c' fm' with
        | error _ => rw [hc'] at hf; exact hf.elim
        | ok d' =>
          rw [hc'] at hf
          exact resume_swap (hr _ _ (.build _) (.build _) hf (.build hb)) (k := fun r => runProg L rec c (k r)) fun r =>
            runProg_swap L hr hc (k r) _ (h r)
  | .query style b k, p', h => by
    cases h with
    | query _ hb h =>
      simp only [runProg, newContext_eq]
      exact (withOwnStore_swap (hr _ _ (.build _) (.build _) (ctx_same E) (.build hb)) style).bindEq fun r =>
        runProg_swap L hr hc (k r) _ (h r)

theorem signature_swap {f f' : FuncInfo} (h : InfoSwap E f f') :
    joinSignatureOk f = joinSignatureOk f' ∧ (∀ n, f.arityOk n = f'.arityOk n) ∧ (∀ n, f.paramTypes n = f'.paramTypes n) := by
  obtain ⟨name, ins, v, outs, body⟩ := f
  obtain ⟨name', ins', v', outs', body'⟩ := f'
  obtain ⟨h1, h2, h3, h4, -⟩ := h
  dsimp only at h1 h2 h3 h4
  subst h1; subst h2; subst h3; subst h4
  exact ⟨rfl, fun _ => rfl, fun _ => rfl⟩

theorem nilContext_swap : CtxSwap E newEmptyContext.withNilFragment newEmptyContext.withNilFragment :=
  ⟨.cons .nil .nil, rfl, .nil⟩

theorem joinCompatible_swap {rec : Rec} {recs : Nat → Rec} (hr : RecSwap E rec recs) {f f' : FuncInfo} (h : InfoSwap E f f') :
    MSwap E Eq (joinCompatible rec f) (fun n => joinCompatible (recs n) f') := by
  unfold joinCompatible
  rw [(signature_swap h).1]
  by_cases hj : (!joinSignatureOk f') = true
  · simp only [hj, if_true]
    exact mswap_pure rfl
  · have hj := Bool.not_eq_true _ |>.mp hj
    simp only [hj, Bool.false_eq_true, if_false]
    intro s s' hs hne
    have h0 : StSwap E { s with store := .new question, usedA := [], usedF := [] }
        { s' with store := .new question, usedA := [], usedF := [] } := ⟨rfl, rfl, rfl, hs.heap, hs.log⟩
    dsimp only at hne ⊢
    have hne1 : (rec newEmptyContext.withNilFragment (.call f [.int 0])
        { s with store := .new question, usedA := [], usedF := [] }).1 ≠ .oof := by
      intro h1
      apply hne
      rw [h1]
    obtain ⟨r, ⟨N, hN⟩, h1, h2⟩ := hr _ _ (.call f [.int 0]) (.call f' [.int 0]) nilContext_swap (.call h _) _ _ h0 hne1
    dsimp only at hN
    have hb : ∀ t t' : St, StSwap E t t' → StSwap E { t with store := s.store, usedA := s.usedA, usedF := s.usedF }
        { t' with store := s'.store, usedA := s'.usedA, usedF := s'.usedF } := fun t t' ht =>
      ⟨hs.store, hs.usedA, hs.usedF, ht.heap, ht.log⟩
    rcases h1.cases' hne1 with ⟨a, b, e, e', hq⟩ | ⟨x, e, e'⟩ | ⟨x, e, e'⟩ <;> rw [e]
    · refine ⟨(.ok false, _), ⟨N, fun n hn => ?_⟩, rfl, hb _ _ h2⟩
      dsimp only
      rw [hN n hn, e']
    · refine ⟨(.ok x.isInvalidIndex, _), ⟨N, fun n hn => ?_⟩, rfl, hb _ _ h2⟩
      dsimp only
      rw [hN n hn, e']
    · refine ⟨(.panic x, _), ⟨N, fun n hn => ?_⟩, rfl, hb _ _ h2⟩
      dsimp only
      rw [hN n hn, e']

theorem joinCheck_swap {rec : Rec} {recs : Nat → Rec} (hr : RecSwap E rec recs) {c c' : Ctx} (hc : CtxSwap E c c')
    (es : List Expr) : MSwap E Eq (joinCheck rec c es) (fun n => joinCheck (recs n) c' es) := by
  induction es with
  | nil => exact mswap_pure rfl
  | cons e es ih =>
    cases e with
    | func name =>
      simp only [joinCheck]
      rcases fn_swap hc name with ⟨h1, h2⟩ | ⟨f, f', h1, h2, h3⟩
      · rw [h1, h2]; exact mswap_err _
      · rw [h1, h2]
        refine (joinCompatible_swap hr h3).bindEq fun ok => ?_
        cases ok with
        | true => exact ih.bindEq fun n => mswap_pure rfl
        | false => exact mswap_err _
    | _ => exact ih

/-- What a join does with the outcome of one instance. -/
def joinNext (sep : Str) (from_ to i : Int) (acc : Str) (cont : Str → M Str) : Out Str × St → Out Str × St
  | (.ok t, s') => if to > 0 ∧ i ≥ to then (.ok (joinAppend sep acc t), s') else cont (joinAppend sep acc t) s'
  | (.err e, s') =>
    if e.isInvalidIndex then
      if (from_ > 0 ∧ i = from_) ∨ (to > 0 ∧ i ≤ to) then (.err e, s') else (.ok acc, s')
    else (.err e, s')
  | (.panic p, s') => (.panic p, s')
  | (.oof, s') => (.oof, s')

theorem joinLoop_succ (rec : Rec) (c : Ctx) (es : List Expr) (sep : Str) (from_ to : Int) (k : Nat) (i : Int) (acc : Str) (s : St) :
    joinLoop rec c es sep from_ to (k + 1) i acc s =
      joinNext sep from_ to i acc (joinLoop rec c es sep from_ to k (i + 1)) (rec c (.clause (joinInst es i)) s) := by
  rw [joinLoop]
  dsimp only
  rcases h : rec c (.clause (joinInst es i)) s with ⟨o, s1⟩
  cases o <;> rfl

theorem joinLoop_swap {rec : Rec} {recs : Nat → Rec} (hr : RecSwap E rec recs) {c c' : Ctx} (hc : CtxSwap E c c')
    (es : List Expr) (sep : Str) (from_ to : Int) (k j : Nat) (i : Int) (acc : Str) :
    MSwap E Eq (joinLoop rec c es sep from_ to k i acc) (fun n => joinLoop (recs n) c' es sep from_ to (n - j) i acc) := by
  induction k generalizing i acc j with
  | zero => exact mswap_oof
  | succ k ih =>
    intro s s' hs hne
    rw [joinLoop_succ] at hne ⊢
    have hne1 : (rec c (.clause (joinInst es i)) s).1 ≠ .oof := by
      intro h1
      apply hne
      rw [show rec c (.clause (joinInst es i)) s = (.oof, (rec c (.clause (joinInst es i)) s).2) from by rw [← h1]]
      rfl
    obtain ⟨r, ⟨N, hN⟩, h1, h2⟩ := hr _ _ (.clause (joinInst es i)) (.clause (joinInst es i)) hc (.clause _) s s' hs hne1
    dsimp only at hN
    have hstep : ∀ n, N + j + 1 ≤ n → joinLoop (recs n) c' es sep from_ to (n - j) i acc s' =
        joinNext sep from_ to i acc (joinLoop (recs n) c' es sep from_ to (n - (j + 1)) (i + 1)) r := by
      intro n hn
      obtain ⟨m, hm⟩ : ∃ m, n - j = m + 1 := ⟨n - j - 1, by omega⟩
      rw [hm, joinLoop_succ, hN n (by omega), show n - (j + 1) = m by omega]
    rcases h1.cases' hne1 with ⟨a, b, e, e', hq⟩ | ⟨x, e, e'⟩ | ⟨x, e, e'⟩
    · subst hq
      rw [e] at hne ⊢
      rw [e'] at hstep
      unfold joinNext at hne hstep ⊢
      dsimp only at hne hstep ⊢
      by_cases hcond : to > 0 ∧ i ≥ to
      · rw [if_pos hcond]
        simp only [if_pos hcond] at hstep
        exact ⟨_, ⟨N + j + 1, hstep⟩, rfl, h2⟩
      · rw [if_neg hcond] at hne ⊢
        simp only [if_neg hcond] at hstep
        obtain ⟨r2, ⟨N2, hN2⟩, h3, h4⟩ := ih (j + 1) _ _ _ _ h2 hne
        exact ⟨r2, ⟨max N2 (N + j + 1), fun n hn => (hstep n (by omega)).trans (hN2 n (by omega))⟩, h3, h4⟩
    · rw [e] at hne ⊢
      rw [e'] at hstep
      unfold joinNext at hne hstep ⊢
      dsimp only at hne hstep ⊢
      refine ⟨_, ⟨N + j + 1, hstep⟩, ?_⟩
      split
      · split
        · exact ⟨rfl, h2⟩
        · exact ⟨rfl, h2⟩
      · exact ⟨rfl, h2⟩
    · rw [e]
      rw [e'] at hstep
      exact ⟨_, ⟨N + j + 1, hstep⟩, rfl, h2⟩

theorem funcJoin_swap (L : GoLib) {rec : Rec} {recs : Nat → Rec} (hr : RecSwap E rec recs) (fuel : Nat) {c c' : Ctx}
    (hc : CtxSwap E c c') (tmpl sep : Str) (is : List Int) :
    MSwap E Eq (funcJoin L rec fuel c tmpl sep is) (fun n => funcJoin L (recs n) n c' tmpl sep is) := by
  unfold funcJoin
  by_cases h1 : is.length > 2
  · simp only [h1, if_true]; exact mswap_err _
  · simp only [h1, if_false]
    by_cases h2 : is.getD 1 0 > 0 ∧ is.getD 0 0 > is.getD 1 0
    · simp only [if_pos h2]; exact mswap_err _
    · simp only [if_neg h2]
      cases parse L tmpl with
      | error e => exact mswap_err _
      | ok es =>
        refine (joinCheck_swap hr hc es).bindEq fun k => ?_
        by_cases hk : k = 0
        · simp only [if_pos hk]; exact mswap_err _
        · simp only [if_neg hk]
          exact joinLoop_swap hr hc _ _ _ _ _ 0 _ _

theorem callBody_swap (L : GoLib) {rec : Rec} {recs : Nat → Rec} (hr : RecSwap E rec recs) (fuel : Nat) {c c' : Ctx}
    (hc : CtxSwap E c c') {body body' : Body} (h : SwappedBody E body body') (vs : List ArgVal) :
    MSwap E Eq (callBody L rec fuel c body vs) (fun n => callBody L (recs n) n c' body' vs) := by
  cases h with
  | builtin b =>
    cases b with
    | arg => exact (mustFragment_swap hc).bind fun f f' hf => argBuild_swap hf _
    | fragment => exact (mustFragment_swap hc).bind fun f f' hf => fragmentBuild_swap hr hc hf _
    | join => exact funcJoin_swap L hr fuel hc _ _ _
  | custom h => exact runProg_swap L hr hc _ _ (h vs)

theorem evalCall_swap (L : GoLib) {rec : Rec} {recs : Nat → Rec} (hr : RecSwap E rec recs) (fuel : Nat) {c c' : Ctx}
    (hc : CtxSwap E c c') {f f' : FuncInfo} (h : InfoSwap E f f') (as : List CallArg) :
    MSwap E Eq (evalCall L rec fuel c f as) (fun n => evalCall L (recs n) n c' f' as) := by
  obtain ⟨-, h2, h3⟩ := signature_swap h
  unfold evalCall
  rw [h2, h3, h.name, h.outs]
  by_cases h1 : (!f'.arityOk as.length) = true
  · simp only [h1, if_true]; exact mswap_err _
  · have h1 := Bool.not_eq_true _ |>.mp h1
    simp only [h1, Bool.false_eq_true, if_false]
    cases evalArgs (f'.paramTypes as.length) as with
    | err e => exact mswap_err _
    | panic p => exact mswap_panic _
    | oof => exact mswap_oof
    | ok vs =>
      refine MSwap.wrapErr (MSwap.safe ?_) _
      by_cases h4 : callAssignable (f'.paramTypes as.length) vs = true
      · simp only [h4, if_true]
        exact (callBody_swap L hr fuel hc h.body vs).bindEq fun s => mswap_pure rfl
      · simp only [h4]
        exact mswap_panic _

/-! ## Clauses and fragments -/

theorem evalExpr_swap (L : GoLib) {rec : Rec} {recs : Nat → Rec} (hr : RecSwap E rec recs) (fuel : Nat) {c c' : Ctx}
    (hc : CtxSwap E c c') (e : Expr) : MSwap E Eq (evalExpr L rec fuel c e) (fun n => evalExpr L (recs n) n c' e) := by
  cases e with
  | plain t => exact mswap_pure rfl
  | bindVar style i =>
    refine (mustFragment_swap hc).bind fun f f' hf => ?_
    rw [hf.args]
    cases position i f'.args.length with
    | none => exact mswap_err _
    | some _ => exact argBuild_swap hf i
  | call name as =>
    show MSwap E Eq (evalFunction L rec fuel c name as) (fun n => evalFunction L (recs n) n c' name as)
    unfold evalFunction
    rcases fn_swap hc name with ⟨h1, h2⟩ | ⟨f, f', h1, h2, h3⟩
    · rw [h1, h2]; exact mswap_err _
    · rw [h1, h2]; exact evalCall_swap L hr fuel hc h3 as
  | func name => exact mswap_err _

theorem buildClause_swap (L : GoLib) {rec : Rec} {recs : Nat → Rec} (hr : RecSwap E rec recs) (fuel : Nat) {c c' : Ctx}
    (hc : CtxSwap E c c') (es : List Expr) :
    MSwap E Eq (buildClause L rec fuel c es) (fun n => buildClause L (recs n) n c' es) := by
  induction es with
  | nil => exact mswap_pure rfl
  | cons e es ih => exact (evalExpr_swap L hr fuel hc e).bindEq fun s => ih.bindEq fun t => mswap_pure rfl

theorem swappedF_parts {f g : Fragment} (h : SwappedF E f g) :
    f.raw = g.raw ∧ f.args = g.args ∧ Pointwise (Swapped E) f.frags g.frags ∧ f.pre = g.pre ∧ f.suf = g.suf := by
  cases h with
  | mk h => exact ⟨rfl, rfl, swappedL_pointwise.1 h, rfl, rfl⟩

theorem buildFragment_swap (L : GoLib) {rec : Rec} {recs : Nat → Rec} (hr : RecSwap E rec recs) (fuel : Nat) {c c' : Ctx}
    (hc : CtxSwap E c c') {f g : Fragment} (h : SwappedF E f g) :
    MSwap E Eq (buildFragment L rec fuel c f) (fun n => buildFragment L (recs n) n c' g) := by
  obtain ⟨h1, h2, h3, h4, h5⟩ := swappedF_parts h
  have hc2 : CtxSwap E (c.withFragment f) (c'.withFragment g) := ⟨hc.funcs, h2, h3⟩
  have hb : MSwap E Eq (buildBody L rec fuel (c.withFragment f) f) (fun n => buildBody L (recs n) n (c'.withFragment g) g) := by
    unfold buildBody
    rw [h1, h4, h5]
    cases parse L g.raw with
    | error e => exact mswap_err _
    | ok es =>
      refine ((buildClause_swap L hr fuel hc2 es).wrapErr _).bindEq fun body => ?_
      refine mswap_const fun s s' hs => ?_
      rw [checkUsage_swap (f := ⟨f.args, f.frags⟩) (f' := ⟨g.args, g.frags⟩) ⟨h2, h3⟩ hs]
      cases checkUsage ⟨g.args, g.frags⟩ s' with
      | some e => exact ⟨rfl, hs⟩
      | none => exact ⟨rfl, hs⟩
  intro s s' hs hne
  obtain ⟨r, ⟨N, hN⟩, r1, r2⟩ := hb { s with usedA := [], usedF := [] } { s' with usedA := [], usedF := [] }
    ⟨hs.store, rfl, rfl, hs.heap, hs.log⟩ hne
  refine ⟨(r.1, { r.2 with usedA := s'.usedA, usedF := s'.usedF }), ⟨N, fun n hn => ?_⟩, r1, r2.store, hs.usedA, hs.usedF, r2.heap, r2.log⟩
  show withFreshUsage _ s' = _
  unfold withFreshUsage
  dsimp only at hN ⊢
  rw [hN n hn]

/-! ## Query builders -/

theorem getQB_swap (r : Nat) : MSwap E (QBSwap E) (getQB r) (fun _ => getQB r) := by
  refine mswap_const fun s s' hs => ?_
  unfold getQB
  rcases hs.heap.get r with ⟨h1, h2⟩ | ⟨a, b, h1, h2, h3⟩ <;> rw [h1, h2]
  · exact ⟨rfl, hs⟩
  · exact ⟨h3, hs⟩

theorem modifyQB_swap (r : Nat) {f g : QB → QB} (h : ∀ b b', QBSwap E b b' → QBSwap E (f b) (g b')) :
    MSwap E Eq (modifyQB r f) (fun _ => modifyQB r g) := by
  refine mswap_const fun s s' hs => ?_
  unfold modifyQB
  rcases hs.heap.get r with ⟨h1, h2⟩ | ⟨a, b, h1, h2, h3⟩ <;> rw [h1, h2]
  · exact ⟨rfl, hs⟩
  · exact ⟨rfl, hs.store, hs.usedA, hs.usedF, pointwise_set hs.heap (h _ _ h3) r, hs.log⟩

theorem collectM_swap {S : α → β → Prop} {f : α → M (Option Str)} {g : Nat → β → M (Option Str)}
    (hf : ∀ a b, S a b → MSwap E Eq (f a) (fun n => g n b)) {l : List α} {m : List β} (h : Pointwise S l m) :
    MSwap E Eq (collectM f l) (fun n => collectM (g n) m) := by
  induction h with
  | nil => exact mswap_pure rfl
  | cons h _ ih => exact (hf _ _ h).bindEq fun o => ih.bindEq fun l => mswap_pure rfl

theorem buildCTEs_swap {rec : Rec} {recs : Nat → Rec} (hr : RecSwap E rec recs) {c c' : Ctx} (hc : CtxSwap E c c') {b b' : QB}
    (h : QBSwap E b b') (dep : Deps) : MSwap E Eq (buildCTEs rec c b dep) (fun n => buildCTEs (recs n) c' b' dep) := by
  unfold buildCTEs
  refine (collectM_swap ?_ h.ctes).bindEq fun clauses => mswap_pure rfl
  intro x y hxy
  rw [hxy.1]
  by_cases hd : (⟨y.name, []⟩ : TableAliased) ∉ dep
  · simp only [if_pos hd]; exact mswap_pure rfl
  · simp only [if_neg hd]
    exact ((hr _ _ (.build _) (.build _) hc (.build hxy.2.2)).wrapErr _).bindEq fun q => mswap_pure rfl

theorem buildFrom_swap (L : GoLib) {rec : Rec} {recs : Nat → Rec} (hr : RecSwap E rec recs) (fuel : Nat) {c c' : Ctx}
    (hc : CtxSwap E c c') {b b' : QB} (h : QBSwap E b b') (dep : Deps) :
    MSwap E Eq (buildFrom L rec fuel c b dep) (fun n => buildFrom L (recs n) n c' b' dep) := by
  unfold buildFrom
  refine (collectM_swap ?_ (QBSwap.tableList h)).bindEq fun clauses => mswap_pure rfl
  intro x y hxy
  rw [hxy.1, hxy.2.1, h.distinct]
  by_cases hd : b'.distinct = true ∧ y.optional = true ∧ y.names ∉ dep
  · simp only [if_pos hd]; exact mswap_pure rfl
  · simp only [if_neg hd]
    refine (MSwap.wrapErr ?_ _).bindEq fun q => mswap_pure rfl
    have h3 := hxy.2.2
    cases hx : x.fragment <;> cases hy : y.fragment <;> rw [hx, hy] at h3
    · exact mswap_pure rfl
    · cases h3
    · cases h3
    · cases h3 with
      | some h3 => exact buildFragment_swap L hr fuel hc h3

theorem orderItems_swap (distinct : Bool) {os os' : List OrderItem} (h : Pointwise (OrderSwap E) os os') (i : Nat) :
    Pointwise (Swapped E) (orderItems distinct i os).1 (orderItems distinct i os').1 ∧
    Pointwise (Swapped E) (orderItems distinct i os).2.1 (orderItems distinct i os').2.1 ∧
    (orderItems distinct i os).2.2 = (orderItems distinct i os').2.2 := by
  induction h generalizing i with
  | nil => exact ⟨.nil, .nil, rfl⟩
  | @cons o o' _ _ h _ ih =>
    obtain ⟨i1, i2, i3⟩ := ih (i + 1)
    unfold orderItems
    rw [h.1]
    cases orderNames[o'.order]? with
    | none => exact ⟨i1, i2, by dsimp only; rw [i3]⟩
    | some name =>
      cases distinct with
      | false => exact ⟨.cons (.frag (.mk (.cons h.2 .nil))) i1, i2, i3⟩
      | true => exact ⟨.cons (.frag (.mk .nil)) i1, .cons (.frag (.mk (.cons h.2 .nil))) i2, i3⟩

theorem buildOrders_swap (L : GoLib) {rec : Rec} {recs : Nat → Rec} (hr : RecSwap E rec recs) (fuel : Nat) {c c' : Ctx}
    (hc : CtxSwap E c c') (r : Nat) : MSwap E Eq (buildOrders L rec fuel c r) (fun n => buildOrders L (recs n) n c' r) := by
  unfold buildOrders
  refine (getQB_swap r).bind fun b b' h => ?_
  rw [h.distinct]
  obtain ⟨h1, h2, h3⟩ := orderItems_swap b'.distinct h.orders 0
  dsimp only
  refine (modifyQB_swap r ?_).bindEq fun _ => ?_
  · intro d d' hd
    refine ⟨hd.ctes, hd.cells, hd.tables, hd.tablesDict, hd.selects,
      swappedF_appendFragments hd.touches (swappedL_pointwise.2 h2), hd.conditions, hd.orders, hd.groupbys, hd.distinct,
      hd.limit, hd.offset, hd.unions, ?_, hd.debug⟩
    dsimp only
    rw [hd.errors, h3]
  · exact buildFragment_swap L hr fuel hc
      (swappedF_appendFragments (swappedF_withPrefix (swappedF_refl _) _) (swappedL_pointwise.2 h1))

theorem buildSelects_swap (L : GoLib) {rec : Rec} {recs : Nat → Rec} (hr : RecSwap E rec recs) (fuel : Nat) {c c' : Ctx}
    (hc : CtxSwap E c c') (r : Nat) : MSwap E Eq (buildSelects L rec fuel c r) (fun n => buildSelects L (recs n) n c' r) := by
  unfold buildSelects
  refine (modifyQB_swap r ?_).bindEq fun _ => ?_
  · intro d d' hd
    refine ⟨hd.ctes, hd.cells, hd.tables, hd.tablesDict, ?_, hd.touches, hd.conditions, hd.orders, hd.groupbys,
      hd.distinct, hd.limit, hd.offset, hd.unions, hd.errors, hd.debug⟩
    dsimp only
    rw [hd.distinct]
    exact swappedF_withPrefix hd.selects _
  · refine (getQB_swap r).bind fun b b' h => ?_
    refine (buildFragment_swap L hr fuel hc h.selects).bindEq fun sel => ?_
    refine (getQB_swap r).bind fun b b' h => ?_
    refine (buildFragment_swap L hr fuel hc h.touches).bindEq fun touches => ?_
    by_cases hs : sel = []
    · simp only [if_pos hs]; exact mswap_err _
    · simp only [if_neg hs]; exact mswap_pure rfl

theorem buildUnion_swap {rec : Rec} {recs : Nat → Rec} (hr : RecSwap E rec recs) {c c' : Ctx} (hc : CtxSwap E c c')
    {us us' : List Builder} (h : Pointwise (Swapped E) us us') :
    MSwap E Eq (buildUnion rec c us) (fun n => buildUnion (recs n) c' us') := by
  unfold buildUnion
  refine (collectM_swap ?_ h).bindEq fun clauses => mswap_pure rfl
  intro x y hxy
  exact (hr _ _ (.build _) (.build _) hc (.build hxy)).bindEq fun q => mswap_pure rfl

theorem debugLog_swap (L : GoLib) (q : Str) : MSwap E Eq (debugLog L q) (fun _ => debugLog L q) := by
  refine mswap_const fun s s' hs => ?_
  unfold debugLog
  rw [hs.store, hs.log]
  cases interpolate L rfc3339 q s'.store.args with
  | ok t => exact ⟨rfl, ⟨rfl, hs.usedA, hs.usedF, hs.heap, rfl⟩⟩
  | err e => exact ⟨rfl, ⟨rfl, hs.usedA, hs.usedF, hs.heap, rfl⟩⟩
  | panic p => exact ⟨rfl, hs⟩
  | oof => exact ⟨trivial, hs⟩

section
variable (hE : ∀ b c, E b c → tableRefs b = tableRefs c ∧ noNil b = noNil c)
include hE

theorem buildInternal_swap (L : GoLib) {rec : Rec} {recs : Nat → Rec} (hr : RecSwap E rec recs) (fuel : Nat) {c c' : Ctx}
    (hc : CtxSwap E c c') (r : Nat) : MSwap E Eq (buildInternal L rec fuel c r) (fun n => buildInternal L (recs n) n c' r) := by
  unfold buildInternal
  refine (getQB_swap r).bind fun b b' h => ?_
  rw [h.errors, QBSwap.deps hE h]
  by_cases he : b'.errors.length ≠ 0
  · simp only [if_pos he]; exact mswap_err _
  simp only [if_neg he]
  refine mswap_ofOut.bindEq fun dep => ?_
  refine (buildCTEs_swap hr hc h dep).bindEq fun sq => ?_
  refine (getQB_swap r).bind fun b b' h => ?_
  refine (buildFrom_swap L hr fuel hc h dep).bindEq fun from_ => ?_
  refine (getQB_swap r).bind fun b b' h => ?_
  refine (buildFragment_swap L hr fuel hc h.conditions).bindEq fun where_ => ?_
  refine (getQB_swap r).bind fun b b' h => ?_
  refine (buildFragment_swap L hr fuel hc h.groupbys).bindEq fun groupby => ?_
  refine (buildOrders_swap L hr fuel hc r).bindEq fun order => ?_
  refine (getQB_swap r).bind fun b b' h => ?_
  rw [h.limit, h.offset]
  refine (buildSelects_swap L hr fuel hc r).bindEq fun sel => ?_
  refine (getQB_swap r).bind fun b b' h => ?_
  have hu := swappedL_pointwise.1 h.unions
  rw [hu.length]
  refine MSwap.bindEq ?_ fun query => ?_
  · by_cases hn : b'.unions.length > 0
    · simp only [if_pos hn]
      exact (buildUnion_swap hr hc hu).bindEq fun u => mswap_pure rfl
    · simp only [if_neg hn]
      exact mswap_pure rfl
  refine (getQB_swap r).bind fun b b' h => ?_
  rw [h.debug]
  refine MSwap.bindEq ?_ fun _ => mswap_pure rfl
  cases b'.debug with
  | true => exact debugLog_swap L query
  | false => exact mswap_pure rfl

/-! ## Everything -/

theorem buildBuilder_same (L : GoLib) {rec : Rec} {recs : Nat → Rec} (hr : RecSwap E rec recs) (fuel : Nat) {c c' : Ctx}
    (hc : CtxSwap E c c') (b : Builder) :
    MSwap E Eq (buildBuilder L rec fuel c b) (fun n => buildBuilder L (recs n) n c' b) := by
  cases b with
  | nil => exact mswap_panic _
  | nilFrag => exact mswap_pure rfl
  | frag f => exact buildFragment_swap L hr fuel hc (swappedF_refl f)
  | nilColumn => exact mswap_panic _
  | columnNilFrag => exact mswap_pure rfl
  | column t f => exact buildFragment_swap L hr fuel hc (swappedF_refl f)
  | table => exact mswap_pure rfl
  | aliased => exact mswap_pure rfl
  | nilQb => exact mswap_pure rfl
  | qb => exact buildInternal_swap hE L hr fuel hc _
  | custom p => exact runProg_swap L hr hc _ _ (swappedCode_refl p)

end

theorem run_swap (L : GoLib) (hE : ∀ b c, E b c → Replaces L b c) (n : Nat) : RecSwap E (run L n) (run L) := by
  have hE2 : ∀ b c, E b c → tableRefs b = tableRefs c ∧ noNil b = noNil c := fun b c h => ⟨(hE b c h).tables, (hE b c h).nils⟩
  induction n with
  | zero => exact fun _ _ _ _ _ _ => mswap_oof
  | succ n ih =>
    intro c c' t t' hc ht
    -- the right side settles when its steps do
    have shift : ∀ {t'}, MSwap E Eq (step L (run L n) n c t) (fun k => step L (run L k) k c' t') →
        MSwap E Eq (run L (n + 1) c t) (fun k => run L k c' t') := by
      intro t' h s s' hs hne
      obtain ⟨r, ⟨N, hN⟩, h1⟩ := h s s' hs hne
      refine ⟨r, ⟨N + 1, fun k hk => ?_⟩, h1⟩
      obtain ⟨m, rfl⟩ : ∃ m, k = m + 1 := ⟨k - 1, by omega⟩
      exact hN m (by omega)
    cases ht with
    | clause es => exact shift (buildClause_swap L ih n hc es)
    | call h as => exact shift (evalCall_swap L ih n hc h as)
    | @build b b' h =>
      cases h with
      | swap h =>
        have hb := shift (t' := .build b) (buildBuilder_same hE2 L ih n hc b)
        intro s s' hs hne
        obtain ⟨r, hN, h1, h2⟩ := hb s s' hs hne
        have hr : r.1 ≠ .oof := by
          intro h0
          rw [h0] at h1
          rcases ho : (run L (n + 1) c (.build b) s).1 with _ | _ | _ | _ <;> rw [ho] at h1 <;> simp [OutLike] at h1
          exact hne ho
        exact ⟨r, ((hE _ _ h).builds _ _ _ ⟨hr, hN⟩).2, h1, h2⟩
      | nil => exact shift (mswap_panic _)
      | nilFrag => exact shift (mswap_pure rfl)
      | frag h => exact shift (buildFragment_swap L ih n hc h)
      | nilColumn => exact shift (mswap_panic _)
      | columnNilFrag => exact shift (mswap_pure rfl)
      | column h => exact shift (buildFragment_swap L ih n hc h)
      | table => exact shift (mswap_pure rfl)
      | aliased => exact shift (mswap_pure rfl)
      | nilQb => exact shift (mswap_pure rfl)
      | qb => exact shift (buildInternal_swap hE2 L ih n hc _)
      | custom h => exact shift (runProg_swap L ih hc _ _ h)

end

end Sqlf
