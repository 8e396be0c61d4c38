import Verif.Spec.Halting
import Verif.Proofs.Ev
import Verif.Proofs.HeapSim
import Verif.Proofs.Api
import Verif.Proofs.AnyCtx
/-!
# Builds that end, and keep a property of the query builders
-/

namespace Sqlf

open Spec

/-- With enough fuel `m` ends in `s`, and the query builders have the property `H` then. -/
def Finishes (H : List QB → Prop) (m : Nat → M α) (s : St) : Prop := ∃ r, Ev m s r ∧ r.1 ≠ .oof ∧ H r.2.heap

section
variable {α β : Type} {H : List QB → Prop}

theorem Finishes.const {m : M α} {s : St} (h : (m s).1 ≠ .oof) (hs : H (m s).2.heap) : Finishes H (fun _ => m) s :=
  ⟨_, .const _ _, h, hs⟩

theorem Finishes.pure {a : α} {s : St} (hs : H s.heap) : Finishes H (fun _ => M.pure a) s := .const nofun hs
theorem Finishes.err {e : Err} {s : St} (hs : H s.heap) : Finishes H (fun _ => (M.err e : M α)) s := .const nofun hs
theorem Finishes.panic {p : Panic} {s : St} (hs : H s.heap) : Finishes H (fun _ => (M.panic p : M α)) s := .const nofun hs

theorem Finishes.bind {m : Nat → M α} {k : Nat → α → M β} {s : St} (h : Finishes H m s)
    (hk : ∀ a s1, H s1.heap → Finishes H (fun n => k n a) s1) : Finishes H (fun n => M.bind (m n) (k n)) s := by
  obtain ⟨⟨o, s1⟩, h1, h2, h3⟩ := h
  cases o with
  | ok a =>
    obtain ⟨r, h4, h5, h6⟩ := hk a s1 h3
    exact ⟨r, h1.bind h4, h5, h6⟩
  | err e => exact ⟨_, h1.bind_err, nofun, h3⟩
  | panic p => exact ⟨_, h1.bind_panic, nofun, h3⟩
  | oof => exact absurd rfl h2

theorem Finishes.map {m : Nat → M α} {s : St} (g : Out α × St → Out β × St) (h : Finishes H m s)
    (hg : ∀ r, r.1 ≠ .oof → H r.2.heap → (g r).1 ≠ .oof ∧ H (g r).2.heap) : Finishes H (fun n s => g (m n s)) s := by
  obtain ⟨r, ⟨N, h1⟩, h2, h3⟩ := h
  exact ⟨g r, ⟨N, fun n hn => congrArg g (h1 n hn)⟩, hg r h2 h3⟩

theorem Finishes.congr {m m' : Nat → M α} {s : St} (h : Finishes H m s) (hm : ∀ n, m' n s = m n s) : Finishes H m' s := by
  obtain ⟨r, h1, h2⟩ := h
  exact ⟨r, h1.congr hm, h2⟩

theorem Finishes.wrapErr {m : Nat → M α} {s : St} {w : Str} (h : Finishes H m s) : Finishes H (fun n => .wrapErr w (m n)) s := by
  refine (h.map (fun r => match r with | (.err e, s') => (.err (.wrap w e), s') | r => r) ?_)
  rintro ⟨o, s1⟩ h1 h2
  cases o <;> first | exact absurd rfl h1 | exact ⟨nofun, h2⟩

theorem Finishes.safeCall {m : Nat → M Str} {s : St} (h : Finishes H m s) : Finishes H (fun n => safeCall (m n)) s := by
  refine (h.map (fun r => match r with | (.panic p, s') => (.err p.toErr, s') | r => r) ?_)
  rintro ⟨o, s1⟩ h1 h2
  cases o <;> first | exact absurd rfl h1 | exact ⟨nofun, h2⟩

theorem Finishes.run {L : GoLib} {ctx : Ctx} {t : Task} {s : St} (h : Finishes H (fun n => step L (Sqlf.run L n) n ctx t) s) :
    Finishes H (fun n => Sqlf.run L n ctx t) s := by
  obtain ⟨r, h1, h2⟩ := h
  exact ⟨r, Ev.run.2 h1, h2⟩

/-- The fragments of the context's frame can be built. -/
def FrameFinishes (H : List QB → Prop) (L : GoLib) (ctx : Ctx) : Prop :=
  ∀ fr, ctx.frame = some fr → ∀ b ∈ fr.frags, ∀ s, H s.heap → Finishes H (fun n => Sqlf.run L n ctx (.build b)) s

theorem commitArg_ends (v : Val) {s : St} (hs : H s.heap) : Finishes H (fun _ => commitArg v) s := by
  refine .const ?_ ?_ <;> (unfold commitArg; split)
  · nofun
  · nofun
  · exact hs
  · exact hs

theorem mustFragment_ends (ctx : Ctx) {k : Nat → Frame → M β} {s : St} (hs : H s.heap)
    (hk : ∀ fr, ctx.frame = some fr → Finishes H (fun n => k n fr) s) : Finishes H (fun n => M.bind (mustFragment ctx) (k n)) s := by
  cases hf : ctx.frame with
  | none => exact .congr (.err (e := .noFragment) hs) (fun n => by simp [mustFragment, hf, M.bind, M.err])
  | some fr => exact .congr (hk fr hf) (fun n => by simp [mustFragment, hf, M.bind, M.pure])

theorem argBuild_ends (fr : Frame) (i : Int) {s : St} (hs : H s.heap) : Finishes H (fun _ => argBuild fr i) s := by
  unfold argBuild
  cases position i fr.args.length with
  | none => exact .err hs
  | some k =>
    refine Finishes.bind (m := fun _ => markA k) (.const nofun hs) fun _ s1 h1 => ?_
    cases fr.args[k]? with
    | none => exact .panic h1
    | some v => exact commitArg_ends v h1

theorem fragmentBuild_ends {L : GoLib} {ctx : Ctx} (hc : FrameFinishes H L ctx) {fr : Frame} (hf : ctx.frame = some fr) (i : Int)
    {s : St} (hs : H s.heap) : Finishes H (fun n => fragmentBuild (Sqlf.run L n) ctx fr i) s := by
  unfold fragmentBuild
  cases position i fr.frags.length with
  | none => exact .err hs
  | some k =>
    refine Finishes.bind (m := fun _ => markF k) (.const nofun hs) fun _ s1 h1 => ?_
    cases hb : fr.frags[k]? with
    | none => exact .panic h1
    | some b => exact hc fr hf b (List.mem_of_getElem? hb) s1 h1

theorem index_ends {L : GoLib} {ctx : Ctx} (hc : FrameFinishes H L ctx) (name : Str) {b : Builtin} (hb : b ≠ .join)
    (args : List CallArg) {s : St} (hs : H s.heap) :
    Finishes H (fun n => evalCall L (Sqlf.run L n) n ctx (indexInfo name b) args) s := by
  have H1 : ∀ vs, Finishes H (fun n => callBody L (Sqlf.run L n) n ctx (.builtin b) vs) s := by
    intro vs
    cases b with
    | join => exact absurd rfl hb
    | arg => exact mustFragment_ends ctx hs fun fr _ => argBuild_ends fr _ hs
    | fragment => exact mustFragment_ends ctx hs fun fr hf => fragmentBuild_ends hc hf _ hs
  have H2 : ∀ vs, Finishes H (fun n => M.wrapErr name (safeCall (M.bind (callBody L (Sqlf.run L n) n ctx (.builtin b) vs)
          fun s => .pure (outString [.string 0, .error] s)))) s := fun vs =>
    ((H1 vs).bind (k := fun _ s => .pure (outString [.string 0, .error] s)) fun _ _ h => .pure h).safeCall.wrapErr
  match args with
  | [] => exact .err (e := .wrongArgCount name) hs
  | [.num x] => exact H2 [.num .int (.num x)]
  | [.int x] => exact H2 [.num .int (.int x)]
  | [.nil] => exact .err (e := .argType name) hs
  | [.bool _] => exact .err (e := .argType name) hs
  | [.str _] => exact .err (e := .argType name) hs
  | _ :: _ :: l =>
    have h : FuncInfo.arityOk (indexInfo name b) (l.length + 1 + 1) = false := by
      simp [FuncInfo.arityOk, indexInfo, FuncInfo.inContextFirst, FuncInfo.nIn]
    refine .congr (.err (e := .wrongArgCount name) hs) fun n => ?_
    unfold evalCall
    simp only [List.length_cons, h]
    rfl

/-! ## Functions and contexts -/

/-- What `TameFunc` says, of a function in a table. -/
def TameInfo (f : FuncInfo) : Prop :=
  (∃ nm b, b ≠ .join ∧ f = indexInfo nm b) ∨ f = joinInfo ∨
    ∃ p, f.body = .custom p ∧ (∀ vs, BuildsNothing (p vs)) ∧
      (f.outs.length ≠ 2 ∨ (∀ k, ∃ t, p [.num k (.int 0)] = .ret t) ∨
        ∀ k (from_ : Int), ∃ i, from_ ≤ i ∧ GivesNoText (p [.num k (.int i)]))

/-- All functions of the context are built in or tame. -/
def TameCtx (ctx : Ctx) : Prop := ∀ name f, ctx.fn name = some f → TameInfo f

theorem BuiltinCtx.tame {ctx : Ctx} (h : BuiltinCtx ctx) : TameCtx ctx := by
  intro name f hf
  rw [h name] at hf
  split at hf
  · cases hf; exact .inl ⟨_, .arg, nofun, rfl⟩
  split at hf
  · cases hf; exact .inl ⟨_, .fragment, nofun, rfl⟩
  split at hf
  · cases hf; exact .inl ⟨_, .fragment, nofun, rfl⟩
  split at hf
  · cases hf; exact .inr (.inl rfl)
  · cases hf

theorem addValueFuncs_tame (L : GoLib) {fm : FuncMap} (hm : ∀ e ∈ fm, TameFunc e.2) : ∀ {out m : List (Str × FuncInfo)},
    (∀ e ∈ out, TameInfo e.2) → addValueFuncs L out fm = .ok m → ∀ e ∈ m, TameInfo e.2 := by
  induction fm with
  | nil =>
    intro out m ho h
    unfold addValueFuncs at h
    cases h
    exact ho
  | cons p fm ih =>
    intro out m ho h
    obtain ⟨name, v⟩ := p
    have h1 : TameFunc v := hm _ (List.mem_cons_self ..)
    unfold addValueFuncs at h
    split at h
    · cases h
    · cases v with
      | notFunc => cases h
      | func ins var outs body =>
        dsimp only at h
        split at h
        · cases h
        · split at h
          · cases h
          · refine ih (fun e he => hm e (List.mem_cons_of_mem _ he)) (fun e he => ?_) h
            rcases List.mem_append.1 he with he | he
            · exact ho e he
            · rw [List.mem_singleton.1 he]
              cases body with
              | builtin b => exact h1.elim
              | custom p => exact .inr (.inr ⟨p, rfl, h1⟩)

theorem tameCtx_funcs {L : GoLib} {ctx ctx' : Ctx} (hc : TameCtx ctx) {fm : FuncMap} (hm : ∀ e ∈ fm, TameFunc e.2)
    (h : contextWithFuncs L ctx fm = .ok ctx') : TameCtx ctx' := by
  unfold contextWithFuncs at h
  cases hx : addValueFuncs L [] fm with
  | error e => rw [hx] at h; cases h
  | ok m =>
    rw [hx] at h
    cases h
    intro name f hf
    unfold Ctx.fn at hf
    simp only [List.findSome?_cons] at hf
    cases hl : lookupFn m name with
    | some g =>
      rw [hl] at hf
      cases hf
      unfold lookupFn at hl
      cases hy : m.find? (fun x => x.1 = name) with
      | none => rw [hy] at hl; cases hl
      | some e =>
        rw [hy] at hl
        cases hl
        exact addValueFuncs_tame L hm (by simp) hx e (List.mem_of_find?_eq_some hy)
    | none => rw [hl] at hf; exact hc name f hf

theorem tameContext_ctx {L : GoLib} {ctx : Ctx} (h : TameContext L ctx) : TameCtx ctx := by
  induction h with
  | builtins h => exact (onlyBuiltins_iff h).tame
  | withFuncs _ h1 h2 ih => exact tameCtx_funcs ih h1 h2

theorem leaf_ends {L : GoLib} {ctx : Ctx} : ∀ (p : Prog), BuildsNothing p → ∀ {s : St}, H s.heap →
    Finishes H (fun n => runProg L (Sqlf.run L n) ctx p) s
  | .ret _, _, _, hs => .pure hs
  | .fail _, _, _, hs => .err hs
  | .panic _ _, _, _, hs => .panic hs
  | .commit v k, hp, _, hs => (commitArg_ends v hs).bind (k := fun n t => runProg L (Sqlf.run L n) ctx (k t))
      fun t _ h1 => leaf_ends (k t) (hp t) h1
  | .args k, hp, s, hs => leaf_ends (k s.store.args) (hp _) hs
  | .build _ _, hp, _, _ => hp.elim
  | .buildWith _ _ _, hp, _, _ => hp.elim
  | .query _ _ _, hp, _, _ => hp.elim

theorem leaf_no_text {L : GoLib} {rec : Rec} {ctx : Ctx} : ∀ (p : Prog), GivesNoText p → ∀ (s : St) (t : Str) (s1 : St),
    runProg L rec ctx p s ≠ (.ok t, s1)
  | .ret _, hp, _, _, _ => hp.elim
  | .fail _, _, _, _, _ => fun h => by cases h
  | .panic _ _, _, _, _, _ => fun h => by cases h
  | .commit v k, hp, s, t, s1 => fun h => by
    rw [runProg] at h
    obtain ⟨a, s2, _, h⟩ := bind_ok h
    exact leaf_no_text (k a) (hp a) s2 t s1 h
  | .args k, hp, s, t, s1 => leaf_no_text (k s.store.args) (hp _) s t s1
  | .build _ _, hp, _, _, _ => hp.elim
  | .buildWith _ _ _, hp, _, _, _ => hp.elim
  | .query _ _ _, hp, _, _, _ => hp.elim

theorem evalArg_not_oof (t : GoType) (a : CallArg) : evalArg t a ≠ .oof := by
  cases t <;> cases a <;> nofun

theorem evalArgs_not_oof (ts : List GoType) (as : List CallArg) : evalArgs ts as ≠ .oof := by
  induction ts generalizing as with
  | nil => nofun
  | cons t ts ih =>
    cases as with
    | nil => nofun
    | cons a as =>
      unfold evalArgs
      have h1 := evalArg_not_oof t a
      have h2 := ih as
      cases h3 : evalArg t a with
      | oof => exact absurd h3 h1
      | err e => nofun
      | panic p => nofun
      | ok v =>
        dsimp only
        cases h4 : evalArgs ts as with
        | oof => exact absurd h4 h2
        | err e => nofun
        | panic p => nofun
        | ok vs => nofun

theorem custom_ends {L : GoLib} (ctx : Ctx) (f : FuncInfo) {p : List ArgVal → Prog} (hf : f.body = .custom p)
    (hp : ∀ vs, BuildsNothing (p vs)) (args : List CallArg) {s : St} (hs : H s.heap) :
    Finishes H (fun n => evalCall L (Sqlf.run L n) n ctx f args) s := by
  unfold evalCall
  by_cases h1 : (!f.arityOk args.length) = true
  · simp only [if_pos h1]; exact .err hs
  simp only [if_neg h1]
  have h2 := evalArgs_not_oof (f.paramTypes args.length) args
  cases h3 : evalArgs (f.paramTypes args.length) args with
  | oof => exact absurd h3 h2
  | err e => exact .err hs
  | panic p => exact .panic hs
  | ok vs =>
    refine Finishes.wrapErr (Finishes.safeCall ?_)
    by_cases h4 : callAssignable (f.paramTypes args.length) vs = true
    · simp only [if_pos h4, hf]
      exact (leaf_ends (L := L) (ctx := ctx) (p vs) (hp vs) hs).bind (k := fun _ t => .pure (outString f.outs t)) fun _ _ h => .pure h
    · simp only [if_neg h4]; exact .panic hs

theorem custom_index {f : FuncInfo} {p : List ArgVal → Prog} (hf : f.body = .custom p) (hj : joinSignatureOk f = true) :
    f.outs.length = 2 ∧ ∃ k, ∀ L rec fuel ctx i, evalCall L rec fuel ctx f [.int i] =
      .wrapErr f.name (safeCall (M.bind (runProg L rec ctx (p [.num k (.int i)])) fun s => .pure (outString f.outs s))) := by
  obtain ⟨name, ins, variadic, outs, body⟩ := f
  cases hf
  simp only [joinSignatureOk, Bool.and_eq_true, decide_eq_true_eq] at hj
  refine ⟨hj.1.1, ?_⟩
  have hj := hj.2
  match ins with
  | [] => cases hj
  | [t] =>
    cases variadic with
    | false =>
      cases t with
      | num k d => exact ⟨k, fun L rec fuel ctx i => rfl⟩
      | _ => cases hj
    | true =>
      cases t with
      | slice e =>
        cases e with
        | num k d => exact ⟨k, fun L rec fuel ctx i => rfl⟩
        | _ => cases hj
      | num k d => exact ⟨k, fun L rec fuel ctx i => rfl⟩
      | _ => cases hj
  | [c, t] =>
    simp only [Bool.and_eq_true] at hj
    have hc : c = .context := by
      have := hj.1
      cases c <;> first | rfl | cases this
    subst hc
    have hj := hj.2
    cases variadic with
    | false =>
      cases t with
      | num k d => exact ⟨k, fun L rec fuel ctx i => rfl⟩
      | _ => cases hj
    | true =>
      cases t with
      | slice e =>
        cases e with
        | num k d => exact ⟨k, fun L rec fuel ctx i => rfl⟩
        | _ => cases hj
      | num k d => exact ⟨k, fun L rec fuel ctx i => rfl⟩
      | _ => cases hj
  | _ :: _ :: _ :: _ => cases hj

/-! ## `#join` -/

theorem index_out_of_range {L : GoLib} {rec : Rec} {m : Nat} {ctx : Ctx} {name : Str} {b : Builtin} (hb : b ≠ .join) {i : Int}
    (hi : ∀ fr, ctx.frame = some fr → fr.args.length < i ∧ fr.frags.length < i) (s : St) (t : Str) (s1 : St) :
    evalCall L rec m ctx (indexInfo name b) [.int i] s ≠ (.ok t, s1) := by
  show M.wrapErr name (safeCall (M.bind (callBody L rec m ctx (.builtin b) [.num .int (.int i)])
          fun s => .pure (outString [.string 0, .error] s))) s ≠ _
  have : ∃ e, callBody L rec m ctx (.builtin b) [.num .int (.int i)] s = (.err e, s) := by
    cases hf : ctx.frame with
    | none => cases b with
      | join => exact absurd rfl hb
      | arg => exact ⟨.noFragment, by simp [callBody, mustFragment, hf, Bind.bind, M.bind, M.err]⟩
      | fragment => exact ⟨.noFragment, by simp [callBody, mustFragment, hf, Bind.bind, M.bind, M.err]⟩
    | some fr =>
      obtain ⟨h1, h2⟩ := hi fr hf
      cases b with
      | join => exact absurd rfl hb
      | arg => exact ⟨.invalidIndex i, by
          simp [callBody, mustFragment, hf, Bind.bind, M.bind, M.err, M.pure, argBuild, position, ArgVal.toInt, h1]⟩
      | fragment => exact ⟨.invalidIndex i, by
          simp [callBody, mustFragment, hf, Bind.bind, M.bind, M.err, M.pure, fragmentBuild, position, ArgVal.toInt, h2]⟩
  obtain ⟨e, he⟩ := this
  simp [M.wrapErr, safeCall, M.bind, he]

/-- From any index on there is one for which the function gives no text. -/
def EndsSomewhere (L : GoLib) (ctx : Ctx) (f : FuncInfo) : Prop :=
  ∀ i0 : Int, ∃ i, i0 ≤ i ∧ ∀ rec m s t s1, evalCall L rec m ctx f [.int i] s ≠ (.ok t, s1)

theorem index_somewhere (L : GoLib) (ctx : Ctx) (name : Str) {b : Builtin} (hb : b ≠ .join) : EndsSomewhere L ctx (indexInfo name b) := by
  intro i0
  obtain ⟨len, hlen⟩ : ∃ len : Nat, ∀ fr, ctx.frame = some fr → fr.args.length ≤ len ∧ fr.frags.length ≤ len := by
    cases ctx.frame with
    | none => exact ⟨0, fun fr h => by cases h⟩
    | some fr => exact ⟨max fr.args.length fr.frags.length, fun fr' h => by cases h; omega⟩
  refine ⟨max i0 ((len : Int) + 1), by omega, fun rec m s t s1 => index_out_of_range hb (fun fr hf => ?_) s t s1⟩
  have := hlen fr hf
  omega

/-- `#join` ends its test of a function, and accepts it only if it gives no text for some index from any on. -/
theorem compatible_ends {L : GoLib} {f : FuncInfo} (hf : TameInfo f) {s : St} (hs : H s.heap) :
    ∃ r, Ev (fun n => joinCompatible (Sqlf.run L n) f) s r ∧ r.1 ≠ .oof ∧ H r.2.heap ∧ (r.1 = .ok true → ∀ ctx, EndsSomewhere L ctx f) := by
  by_cases hj : joinSignatureOk f = true
  · have trial : Finishes H (fun n => Sqlf.run L n newEmptyContext.withNilFragment (.call f [.int 0]))
        { s with store := .new question, usedA := [], usedF := [] } := by
      refine Finishes.run ?_
      rcases hf with ⟨nm, b, hb, rfl⟩ | rfl | ⟨p, h1, h2, _⟩
      · refine index_ends (fun fr hfr b hbm => ?_) nm hb [.int 0] hs
        cases hfr
        cases hbm
      · cases hj
      · exact custom_ends _ f h1 h2 _ hs
    obtain ⟨⟨o, s1⟩, ⟨N, h1⟩, h2, h3⟩ := trial
    have key : ∀ n, N ≤ n → joinCompatible (Sqlf.run L n) f s = (match o with
        | .ok _ => (.ok false, { s1 with store := s.store, usedA := s.usedA, usedF := s.usedF })
        | .err e => (.ok e.isInvalidIndex, { s1 with store := s.store, usedA := s.usedA, usedF := s.usedF })
        | .panic p => (.panic p, { s1 with store := s.store, usedA := s.usedA, usedF := s.usedF })
        | .oof => (.oof, { s1 with store := s.store, usedA := s.usedA, usedF := s.usedF })) := by
      intro n hn
      have := h1 n hn
      dsimp only at this
      unfold joinCompatible
      rw [hj, this]
      cases o <;> rfl
    refine ⟨_, ⟨N, key⟩, ?_, ?_, ?_⟩
    · cases o <;> first | exact absurd rfl h2 | nofun
    · cases o <;> exact h3
    · intro ho ctx
      rcases hf with ⟨nm, b, hb, rfl⟩ | rfl | ⟨p, hp, h4, h5⟩
      · exact index_somewhere L ctx nm hb
      · cases hj
      · obtain ⟨h6, k, h7⟩ := custom_index hp hj
        rcases h5 with h5 | h5 | h5
        · exact absurd h6 h5
        · obtain ⟨t, ht⟩ := h5 k
          have h8 := h1 (N + 1) (by omega)
          have h9 : evalCall L (Sqlf.run L N) N newEmptyContext.withNilFragment f [.int 0]
            { s with store := .new question, usedA := [], usedF := [] } = (o, s1) := h8
          rw [h7, ht] at h9
          cases h9
          cases ho
        · intro i0
          obtain ⟨i, hi, h8⟩ := h5 k i0
          refine ⟨i, hi, fun rec m s t s1 h => ?_⟩
          rw [h7] at h
          rcases h9 : runProg L rec ctx (p [.num k (.int i)]) s with ⟨o', s2⟩
          have h10 := leaf_no_text (L := L) (rec := rec) (ctx := ctx) _ h8 s
          cases o' with
          | ok t' => exact h10 t' s2 h9
          | _ => simp [M.wrapErr, safeCall, M.bind, h9] at h
  · refine ⟨(.ok false, s), ⟨0, fun n _ => ?_⟩, nofun, hs, nofun⟩
    unfold joinCompatible
    rw [Bool.eq_false_iff.2 hj]
    rfl

/-- `#join` ends its tests; when it accepts all functions of its template, one of them ends somewhere. -/
theorem joinCheck_ends {L : GoLib} {ctx : Ctx} (hb : TameCtx ctx) (es : List Expr) : ∀ s, H s.heap →
    ∃ r, Ev (fun n => joinCheck (Sqlf.run L n) ctx es) s r ∧ r.1 ≠ .oof ∧ H r.2.heap ∧
      ∀ m, r.1 = .ok m → m = 0 ∨ ∃ name ∈ bareFuncs es, ∃ f, ctx.fn name = some f ∧ EndsSomewhere L ctx f := by
  induction es with
  | nil => intro s hs; exact ⟨(.ok 0, s), .const _ _, nofun, hs, fun m h => by cases h; exact .inl rfl⟩
  | cons e es ih =>
    intro s hs
    have skip : bareFuncs (e :: es) = bareFuncs es → (∀ n, joinCheck (Sqlf.run L n) ctx (e :: es) s = joinCheck (Sqlf.run L n) ctx es s) →
        ∃ r, Ev (fun n => joinCheck (Sqlf.run L n) ctx (e :: es)) s r ∧ r.1 ≠ .oof ∧ H r.2.heap ∧
          ∀ m, r.1 = .ok m → m = 0 ∨ ∃ name ∈ bareFuncs (e :: es), ∃ f, ctx.fn name = some f ∧ EndsSomewhere L ctx f := by
      intro h1 h2
      obtain ⟨r, h3, h4⟩ := ih s hs
      rw [h1]
      exact ⟨r, h3.congr h2, h4⟩
    cases e with
    | plain t => exact skip rfl fun _ => rfl
    | bindVar t i => exact skip rfl fun _ => rfl
    | call n a => exact skip rfl fun _ => rfl
    | func name =>
      cases hf : ctx.fn name with
      | none =>
        exact ⟨(.err (.joinUnknownFunc name), s), ⟨0, fun n _ => by simp only [joinCheck, hf, M.err]⟩, nofun, hs, nofun⟩
      | some f =>
        obtain ⟨⟨o, s1⟩, h1, h2, h3, h4⟩ := compatible_ends (H := H) (L := L) (hb name f hf) hs
        have e1 : ∀ n, joinCheck (Sqlf.run L n) ctx (.func name :: es) s = M.bind (joinCompatible (Sqlf.run L n) f) (fun ok =>
            if ok then M.bind (joinCheck (Sqlf.run L n) ctx es) fun n => .pure (n + 1) else .err (.joinIncompatible name)) s := by
          intro n
          simp only [joinCheck, hf]
          rfl
        cases o with
        | oof => exact absurd rfl h2
        | err e => exact ⟨_, h1.bind_err.congr e1, nofun, h3, nofun⟩
        | panic p => exact ⟨_, h1.bind_panic.congr e1, nofun, h3, nofun⟩
        | ok c =>
          cases c with
          | false => exact ⟨_, (h1.bind (r := (.err (.joinIncompatible name), s1)) ⟨0, fun n _ => rfl⟩).congr e1, nofun, h3, nofun⟩
          | true =>
            obtain ⟨⟨o, s2⟩, h5, h6, h7, h8⟩ := ih s1 h3
            have last : ∃ name' ∈ bareFuncs (.func name :: es), ∃ f, ctx.fn name' = some f ∧ EndsSomewhere L ctx f :=
              ⟨name, List.mem_cons_self .., f, hf, h4 rfl ctx⟩
            cases o with
            | oof => exact absurd rfl h6
            | err e => exact ⟨_, (h1.bind h5.bind_err).congr e1, nofun, h7, nofun⟩
            | panic p => exact ⟨_, (h1.bind h5.bind_panic).congr e1, nofun, h7, nofun⟩
            | ok m => exact ⟨(.ok (m + 1), s2), (h1.bind (h5.bind (k := fun _ n => M.pure (n + 1)) ⟨0, fun n _ => rfl⟩)).congr e1, nofun, h7, fun _ _ => .inr last⟩

/-- When one of its functions gives no text, the template of `#join` gives none. -/
theorem clause_out_of_range {L : GoLib} {rec : Rec} {m : Nat} {ctx : Ctx} {i : Int} (es : List Expr) {name : Str}
    (hm : name ∈ bareFuncs es) {f : FuncInfo} (hf : ctx.fn name = some f) (h0 : ∀ s t s1, evalCall L rec m ctx f [.int i] s ≠ (.ok t, s1))
    (s : St) (t : Str) (s1 : St) : buildClause L rec m ctx (joinInst es i) s ≠ (.ok t, s1) := by
  induction es generalizing s t s1 with
  | nil => cases hm
  | cons e es ih =>
    have go : name ∈ bareFuncs es → ∀ e', buildClause L rec m ctx (e' :: joinInst es i) s ≠ (.ok t, s1) := by
      intro h1 e' h
      rw [buildClause] at h
      obtain ⟨a, s2, h3, h4⟩ := bind_ok h
      obtain ⟨a', s3, h5, h6⟩ := bind_ok h4
      exact ih h1 _ _ _ h5
    cases e with
    | plain t => exact go hm _
    | bindVar t i => exact go hm _
    | call n a => exact go hm _
    | func nm =>
      rcases List.mem_cons.1 hm with h | h
      · subst h
        intro h
        have h : buildClause L rec m ctx (.call name [.int i] :: joinInst es i) s = (.ok t, s1) := h
        rw [buildClause] at h
        obtain ⟨a, s2, h3, h4⟩ := bind_ok h
        simp only [evalExpr, evalFunction, hf] at h3
        exact h0 _ _ _ h3
      · exact go h _

/-- The loop of `#join` stops when its template gives no text. -/
theorem joinLoop_stop {ctx : Ctx} {es : List Expr} {sep : Str} {from_ to i : Int} {acc : Str} {s s1 : St} {o : Out Str}
    (ho : ∀ t, o ≠ .ok t) (hoof : o ≠ .oof) : ∃ r : Out Str × St, r.1 ≠ .oof ∧ r.2 = s1 ∧
      ∀ (rec : Rec) m, rec ctx (.clause (joinInst es i)) s = (o, s1) → joinLoop rec ctx es sep from_ to (m + 1) i acc s = r := by
  cases o with
  | ok t => exact absurd rfl (ho t)
  | oof => exact absurd rfl hoof
  | panic p => exact ⟨(.panic p, s1), nofun, rfl, fun rec m h => by unfold joinLoop; dsimp only; rw [h]⟩
  | err e =>
    by_cases h1 : e.isInvalidIndex = true
    · by_cases h2 : (from_ > 0 ∧ i = from_) ∨ (to > 0 ∧ i ≤ to)
      · exact ⟨(.err e, s1), nofun, rfl, fun rec m h => by unfold joinLoop; dsimp only; rw [h]; simp only [h1, if_true, if_pos h2]⟩
      · exact ⟨(.ok acc, s1), nofun, rfl, fun rec m h => by unfold joinLoop; dsimp only; rw [h]; simp only [h1, if_true, if_neg h2]⟩
    · exact ⟨(.err e, s1), nofun, rfl, fun rec m h => by unfold joinLoop; dsimp only; rw [h]; simp only [if_neg h1]⟩

/-- The loop of `#join`, with any bound on its iterations that is large enough. -/
theorem joinLoop_ends {L : GoLib} {ctx : Ctx} (es : List Expr) (stop : Int)
    (hstop : ∀ rec m s t s1, buildClause L rec m ctx (joinInst es stop) s ≠ (.ok t, s1))
    (hcl : ∀ i s, H s.heap → Finishes H (fun n => Sqlf.run L n ctx (.clause (joinInst es i))) s)
    (sep : Str) (from_ to : Int) (d : Nat) :
    ∀ (i : Int) acc s, H s.heap → stop = i + d →
      ∃ r N, (∀ n m, N ≤ n → N ≤ m → joinLoop (Sqlf.run L n) ctx es sep from_ to m i acc s = r) ∧ r.1 ≠ .oof ∧ H r.2.heap := by
  induction d with
  | zero =>
    intro i acc s hs hd
    obtain ⟨⟨o, s1⟩, ⟨N, h1⟩, h2, h3⟩ := hcl i s hs
    have hi : i = stop := by omega
    obtain ⟨r, h4, h5, h6⟩ := joinLoop_stop (ctx := ctx) (es := es) (sep := sep) (from_ := from_) (to := to) (i := i) (acc := acc)
      (s := s) (s1 := s1) (o := o) (fun t ht => hstop _ _ s t s1 (hi ▸ ht ▸ h1 (N + 1) (by omega))) h2
    refine ⟨r, N + 1, fun n m hn hm => ?_, h4, h5 ▸ h3⟩
    obtain ⟨m, rfl⟩ : ∃ k, m = k + 1 := ⟨m - 1, by omega⟩
    exact h6 _ m (h1 n (by omega))
  | succ d ih =>
    intro i acc s hs hd
    obtain ⟨⟨o, s1⟩, ⟨N, h1⟩, h2, h3⟩ := hcl i s hs
    by_cases ho : ∃ t, o = .ok t
    · obtain ⟨t, rfl⟩ := ho
      have key : ∀ n m, N ≤ n → joinLoop (Sqlf.run L n) ctx es sep from_ to (m + 1) i acc s =
          (if to > 0 ∧ i ≥ to then (.ok (joinAppend sep acc t), s1)
              else joinLoop (Sqlf.run L n) ctx es sep from_ to m (i + 1) (joinAppend sep acc t) s1) := by
        intro n m hn
        have := h1 n hn
        dsimp only at this
        conv => lhs; unfold joinLoop
        dsimp only
        rw [this]
      by_cases ht : to > 0 ∧ i ≥ to
      · refine ⟨(.ok (joinAppend sep acc t), s1), N + 1, fun n m hn hm => ?_, nofun, h3⟩
        obtain ⟨m, rfl⟩ : ∃ k, m = k + 1 := ⟨m - 1, by omega⟩
        rw [key n m (by omega)]
        exact if_pos ht
      · obtain ⟨r, N', h4, h5⟩ := ih (i + 1) (joinAppend sep acc t) s1 h3 (by omega)
        refine ⟨r, max N N' + 1, fun n m hn hm => ?_, h5⟩
        obtain ⟨m, rfl⟩ : ∃ k, m = k + 1 := ⟨m - 1, by omega⟩
        rw [key n m (by omega), ← h4 n m (by omega) (by omega)]
        exact if_neg ht
    · obtain ⟨r, h4, h5, h6⟩ := joinLoop_stop (ctx := ctx) (es := es) (sep := sep) (from_ := from_) (to := to) (i := i) (acc := acc)
        (s := s) (s1 := s1) (o := o) (fun t ht => ho ⟨t, ht⟩) h2
      refine ⟨r, N + 1, fun n m hn hm => ?_, h4, h5 ▸ h3⟩
      obtain ⟨m, rfl⟩ : ∃ k, m = k + 1 := ⟨m - 1, by omega⟩
      exact h6 _ m (h1 n (by omega))

theorem funcJoin_ends {L : GoLib} {ctx : Ctx} (hb : TameCtx ctx) (tmpl sep : Str) (indexes : List Int)
    (hcl : ∀ es, parse L tmpl = .ok es → ∀ i s, H s.heap → Finishes H (fun n => Sqlf.run L n ctx (.clause (joinInst es i))) s)
    {s : St} (hs : H s.heap) : Finishes H (fun n => funcJoin L (Sqlf.run L n) n ctx tmpl sep indexes) s := by
  unfold funcJoin
  by_cases h1 : indexes.length > 2
  · simp only [if_pos h1]; exact .err hs
  · simp only [if_neg h1]
    by_cases h2 : indexes.getD 1 0 > 0 ∧ indexes.getD 0 0 > indexes.getD 1 0
    · simp only [if_pos h2]; exact .err hs
    · simp only [if_neg h2]
      cases hp : parse L tmpl with
      | error e => exact .err hs
      | ok es =>
        show Finishes H (fun n => M.bind (joinCheck (Sqlf.run L n) ctx es) fun m => if m = 0 then .err .joinNoFunc
          else joinLoop (Sqlf.run L n) ctx es sep (indexes.getD 0 0) (indexes.getD 1 0) n
            (if indexes.getD 0 0 ≤ 0 then 1 else indexes.getD 0 0) []) s
        obtain ⟨⟨o, s1⟩, h1, h2, h3, h4⟩ := joinCheck_ends (H := H) (L := L) hb es s hs
        cases o with
        | oof => exact absurd rfl h2
        | err e => exact ⟨_, h1.bind_err, nofun, h3⟩
        | panic p => exact ⟨_, h1.bind_panic, nofun, h3⟩
        | ok m =>
          by_cases h0 : m = 0
          · refine ⟨(.err .joinNoFunc, s1), h1.bind ⟨0, fun n _ => ?_⟩, nofun, h3⟩
            simp [h0, M.err]
          · obtain ⟨name, hm, f, hf, hend⟩ := (h4 m rfl).resolve_left h0
            obtain ⟨stop, h5, h6⟩ := hend (if indexes.getD 0 0 ≤ 0 then 1 else indexes.getD 0 0)
            obtain ⟨r, N, h7, h8, h9⟩ := joinLoop_ends es stop (fun rec m s t s1 => clause_out_of_range es hm hf (h6 rec m) s t s1) (hcl es hp)
              sep (indexes.getD 0 0) (indexes.getD 1 0) (stop - (if indexes.getD 0 0 ≤ 0 then 1 else indexes.getD 0 0)).toNat
              (if indexes.getD 0 0 ≤ 0 then 1 else indexes.getD 0 0) [] s1 h3 (by omega)
            refine ⟨r, h1.bind ⟨N, fun n hn => ?_⟩, h8, h9⟩
            dsimp only
            rw [if_neg h0]
            exact h7 n n hn hn

/-- What `#join` gets from a call does not depend on the context. -/
theorem evalCall_join_all (L : GoLib) (args : List CallArg) :
    (∃ t u is vs, joinArgs L args = .ok (t, u, is) ∧ (vs.getD 0 .context).toStr = t ∧
      ∀ rec fuel ctx, evalCall L rec fuel ctx joinInfo args =
        .wrapErr (lit "join") (safeCall (M.bind (callBody L rec fuel ctx (.builtin .join) vs)
          fun s => .pure (outString [.string 0, .error] s)))) ∨
    (∃ p, ∀ rec fuel ctx, evalCall L rec fuel ctx joinInfo args = .panic p) ∨
    (∃ e, ∀ rec fuel ctx, evalCall L rec fuel ctx joinInfo args = .err e) := by
  match args with
  | [] => exact .inr (.inr ⟨.wrongArgCount _, fun _ _ _ => rfl⟩)
  | [_] => exact .inr (.inr ⟨.wrongArgCount _, fun _ _ _ => rfl⟩)
  | a :: b :: as =>
    have har : FuncInfo.arityOk joinInfo (a :: b :: as).length = true := by
      simp [FuncInfo.arityOk, joinInfo, FuncInfo.inContextFirst, FuncInfo.nInFixed, FuncInfo.nIn]
    have hty : FuncInfo.paramTypes joinInfo (a :: b :: as).length =
        .string 0 :: .string 0 :: List.replicate as.length (.num .int 0) := by
      simp [FuncInfo.paramTypes, joinInfo, FuncInfo.inContextFirst, GoType.elem]
    unfold evalCall
    rw [har, hty]
    simp only [Bool.not_true, Bool.false_eq_true, if_false, evalArgs, joinArgs]
    rcases evalArg_string a with ⟨v, t, h1, h2, h3, h4⟩ | ⟨h1, h2⟩ | ⟨h1, e, h2⟩
    · rw [h1, h2]
      rcases evalArg_string b with ⟨w, u, h5, h6, h7, h8⟩ | ⟨h5, h6⟩ | ⟨h5, e, h6⟩
      · rw [h5, h6]
        rcases evalArgs_ints L as with ⟨vs, is, h9, h10, h11, h12⟩ | ⟨h9, e, h10⟩
        · rw [h9, h10]
          refine .inl ⟨t, u, is, v :: w :: vs, rfl, h3, fun rec fuel ctx => ?_⟩
          dsimp only
          rw [if_pos (by rw [h4, h8, h12])]
          rfl
        · rw [h10]
          exact .inr (.inr ⟨.argType _, fun _ _ _ => rfl⟩)
      · rw [h6]
        exact .inr (.inl ⟨_, fun _ _ _ => rfl⟩)
      · rw [h6]
        exact .inr (.inr ⟨.argType _, fun _ _ _ => rfl⟩)
    · rw [h2]
      exact .inr (.inl ⟨_, fun _ _ _ => rfl⟩)
    · rw [h2]
      exact .inr (.inr ⟨.argType _, fun _ _ _ => rfl⟩)

/-! ## Templates and fragments -/

theorem call_ends {L : GoLib} {ctx : Ctx} (hb : TameCtx ctx) (hc : FrameFinishes H L ctx) {depth : Nat} (name : Str)
    {args : List CallArg} (hsh : ShortArgs depth args)
    (hev : ∀ d, depth = d + 1 → ∀ es, Short d es → ∀ s, H s.heap → Finishes H (fun n => buildClause L (Sqlf.run L n) n ctx es) s)
    {s : St} (hs : H s.heap) : Finishes H (fun n => evalFunction L (Sqlf.run L n) n ctx name args) s := by
  unfold evalFunction
  cases hfn : ctx.fn name with
  | none => exact .err hs
  | some f =>
    rcases hb name f hfn with ⟨nm, b, hbj, rfl⟩ | rfl | ⟨p, h1, h2, _⟩
    · exact index_ends hc _ hbj args hs
    · dsimp only
      have main : ∀ t u is, joinArgs L args = .ok (t, u, is) → ∀ (vs : List ArgVal), (vs.getD 0 .context).toStr = t →
          Finishes H (fun n => M.wrapErr (lit "join") (Sqlf.safeCall (M.bind (callBody L (Sqlf.run L n) n ctx (.builtin .join) vs)
            fun s => .pure (outString [.string 0, .error] s)))) s := by
        intro t u is h1 vs h2
        have hst : t.length < depth := by
          rcases hsh with hsh | ⟨i, rfl⟩
          · cases args with
            | nil => cases h1
            | cons a l =>
              cases l with
              | nil => cases h1
              | cons b as =>
                rw [joinArgs] at h1
                obtain ⟨a', ha', h1⟩ := Res.bind_ok h1
                obtain ⟨b', _, h1⟩ := Res.bind_ok h1
                obtain ⟨c', _, h1⟩ := Res.bind_ok h1
                cases h1
                cases a <;> simp only [strArg] at ha' <;> cases ha'
                · exact absurd List.mem_cons_self (hsh.2 _)
                · exact hsh.1 _ (by simp)
          · cases h1
        obtain ⟨d, rfl⟩ : ∃ d, depth = d + 1 := ⟨depth - 1, by omega⟩
        have hbody : Finishes H (fun n => callBody L (Sqlf.run L n) n ctx (.builtin .join) vs) s := by
          show Finishes H (fun n => funcJoin L (Sqlf.run L n) n ctx (vs.getD 0 .context).toStr (vs.getD 1 .context).toStr
            ((vs.drop 2).map (·.toInt L))) s
          rw [h2]
          refine funcJoin_ends hb t _ _ (fun es hes i s hs => ?_) hs
          have hsh' := parse_short hes
          refine Finishes.run ?_
          show Finishes H (fun n => buildClause L (Sqlf.run L n) n ctx (joinInst es i)) s
          rw [joinInst_eq]
          exact hev d rfl _ (short_atIndex (hsh'.mono (by omega)) i) s hs
        exact (hbody.bind (k := fun _ s => .pure (outString [.string 0, .error] s)) fun _ _ h => .pure h).safeCall.wrapErr
      rcases evalCall_join_all L args with ⟨t, u, is, vs, h1, h2, h3⟩ | ⟨p, h⟩ | ⟨e, h⟩
      · exact .congr (main t u is h1 vs h2) fun n => by rw [h3]
      · exact .congr (.panic (p := p) hs) fun n => by rw [h]
      · exact .congr (.err (e := e) hs) fun n => by rw [h]
    · exact custom_ends ctx f h1 h2 args hs

theorem clause_ends {L : GoLib} {ctx : Ctx} (hb : TameCtx ctx) (hc : FrameFinishes H L ctx) (depth : Nat) :
    ∀ es, Short depth es → ∀ s, H s.heap → Finishes H (fun n => buildClause L (Sqlf.run L n) n ctx es) s := by
  have one : ∀ depth, (∀ d, depth = d + 1 → ∀ es, Short d es → ∀ s, H s.heap → Finishes H (fun n => buildClause L (Sqlf.run L n) n ctx es) s) →
      ∀ es, Short depth es → ∀ s, H s.heap → Finishes H (fun n => buildClause L (Sqlf.run L n) n ctx es) s := by
    intro depth hev es
    induction es with
    | nil => intro _ s hs; exact .pure hs
    | cons e es ih =>
      intro hsh s hs
      have hsh' : Short depth es := fun name as hx => hsh name as (by simp [hx])
      refine Finishes.bind (m := fun n => evalExpr L (Sqlf.run L n) n ctx e)
        (k := fun n t => M.bind (buildClause L (Sqlf.run L n) n ctx es) fun u => .pure (t ++ u)) ?_ fun t s1 h1 =>
          (ih hsh' s1 h1).bind (k := fun _ u => .pure (t ++ u)) fun _ _ h => .pure h
      cases e with
      | plain t => exact .pure hs
      | bindVar t i =>
        refine mustFragment_ends ctx hs fun fr hf => ?_
        cases position i fr.args.length with
        | none => exact .err hs
        | some k => exact argBuild_ends fr i hs
      | call name args => exact call_ends hb hc name (hsh name args (by simp)) hev hs
      | func name => exact .err hs
  induction depth with
  | zero => exact one 0 (fun d hd => by cases hd)
  | succ depth ih => exact one (depth + 1) (fun d hd => by cases hd; exact ih)

theorem fragment_ends {L : GoLib} {ctx : Ctx} (hb : TameCtx ctx) (f : Fragment)
    (hf : ∀ b ∈ f.frags, ∀ ctx, TameCtx ctx → ∀ s, H s.heap → Finishes H (fun n => Sqlf.run L n ctx (.build b)) s)
    {s : St} (hs : H s.heap) : Finishes H (fun n => buildFragment L (Sqlf.run L n) n ctx f) s := by
  have hb' : TameCtx (ctx.withFragment f) := hb
  have hc : FrameFinishes H L (ctx.withFragment f) := by
    intro fr hfr b hbm s hs
    cases hfr
    exact hf b hbm _ hb' s hs
  have body : Finishes H (fun n => buildBody L (Sqlf.run L n) n (ctx.withFragment f) f) { s with usedA := [], usedF := [] } := by
    unfold buildBody
    cases hp : parse L f.raw with
    | error e => exact .err hs
    | ok es =>
      refine Finishes.bind (m := fun n => M.wrapErr f.raw (buildClause L (Sqlf.run L n) n (ctx.withFragment f) es))
        (k := fun n body s => match checkUsage { args := f.args, frags := f.frags } s with
          | some e => (.err (.wrap f.raw e), s)
          | none => (.ok (decorate f.pre f.suf body), s)) (clause_ends hb' hc _ es (parse_short hp) { s with usedA := [], usedF := [] } hs).wrapErr fun t s1 h1 => ?_
      cases hcu : checkUsage { args := f.args, frags := f.frags } s1 with
      | some e => exact ⟨(.err (.wrap f.raw e), s1), ⟨0, fun n _ => by simp only [hcu]⟩, nofun, h1⟩
      | none => exact ⟨(.ok (decorate f.pre f.suf t), s1), ⟨0, fun n _ => by simp only [hcu]⟩, nofun, h1⟩
  obtain ⟨r, ⟨N, h1⟩, h2, h3⟩ := body
  refine ⟨(r.1, { r.2 with usedA := s.usedA, usedF := s.usedF }), ⟨N, fun n hn => ?_⟩, h2, h3⟩
  have := h1 n hn
  dsimp only at this
  simp only [buildFragment, withFreshUsage, this]

/-! ## User code -/

/-- The builder can be built, with the functions that are built in and tame ones. -/
def Builds (H : List QB → Prop) (L : GoLib) (b : Builder) : Prop :=
  ∀ ctx, TameCtx ctx → ∀ s, H s.heap → Finishes H (fun n => Sqlf.run L n ctx (.build b)) s

theorem then_ends {m : Nat → M Str} {k : Nat → Except Err Str → M Str} {s : St} (h : Finishes H m s)
    (hk : ∀ r s1, H s1.heap → Finishes H (fun n => k n r) s1) :
    Finishes H (fun n s => match m n s with
      | (.ok t, s') => k n (.ok t) s'
      | (.err e, s') => k n (.error e) s'
      | (.panic p, s') => (.panic p, s')
      | (.oof, s') => (.oof, s')) s := by
  obtain ⟨⟨o, s1⟩, ⟨N, h1⟩, h2, h3⟩ := h
  cases o with
  | ok t =>
    obtain ⟨r, ⟨N', h4⟩, h5⟩ := hk (.ok t) s1 h3
    exact ⟨r, ⟨max N N', fun n hn => by dsimp only; rw [h1 n (by omega)]; exact h4 n (by omega)⟩, h5⟩
  | err e =>
    obtain ⟨r, ⟨N', h4⟩, h5⟩ := hk (.error e) s1 h3
    exact ⟨r, ⟨max N N', fun n hn => by dsimp only; rw [h1 n (by omega)]; exact h4 n (by omega)⟩, h5⟩
  | panic p => exact ⟨(.panic p, s1), ⟨N, fun n hn => by dsimp only; rw [h1 n (by omega)]⟩, nofun, h3⟩
  | oof => exact absurd rfl h2

theorem own_ends {m : Nat → M Str} {style : Style} {s : St} (h : Finishes H m { s with store := .new style, usedA := [], usedF := [] }) :
    Finishes H (fun n => withOwnStore style (m n)) s := by
  obtain ⟨⟨o, s1⟩, ⟨N, h1⟩, h2, h3⟩ := h
  refine ⟨withOwnStore style (fun _ => (o, s1)) s, ⟨N, fun n hn => ?_⟩, ?_, ?_⟩
  · simp only [withOwnStore, h1 n hn]
  · cases o <;> first | exact absurd rfl h2 | exact nofun
  · cases o <;> exact h3

end

mutual
theorem builder_ends {H : List QB → Prop} {L : GoLib} {S : Nat → Prop} (hq : ∀ r, S r → Builds H L (.qb r)) :
    ∀ b, RefsIn S b → AddsTame b → Builds H L b
  | .nil, _, _ => fun _ _ _ hs => .run (.panic hs)
  | .nilFrag, _, _ => fun _ _ _ hs => .run (.pure hs)
  | .frag f, hr, ha => fun ctx hb s hs => .run (fragment_ends hb f (frags_end hq f hr ha) hs)
  | .nilColumn, _, _ => fun _ _ _ hs => .run (.panic hs)
  | .columnNilFrag _, _, _ => fun _ _ _ hs => .run (.pure hs)
  | .column _ f, hr, ha => fun ctx hb s hs => .run (fragment_ends hb f (frags_end hq f hr ha) hs)
  | .table _, _, _ => fun _ _ _ hs => .run (.pure hs)
  | .aliased _ _, _, _ => fun _ _ _ hs => .run (.pure hs)
  | .nilQb, _, _ => fun _ _ _ hs => .run (.pure hs)
  | .qb r, hr, _ => hq r hr
  | .custom p, hr, ha => fun ctx hb s hs => .run (prog_ends hq p hr ha ctx hb s hs)
theorem frags_end {H : List QB → Prop} {L : GoLib} {S : Nat → Prop} (hq : ∀ r, S r → Builds H L (.qb r)) :
    ∀ f, RefsInF S f → AddsTameF f → ∀ b ∈ f.frags, Builds H L b
  | .mk _ _ bs _ _, hr, ha => builders_end hq bs hr ha
theorem builders_end {H : List QB → Prop} {L : GoLib} {S : Nat → Prop} (hq : ∀ r, S r → Builds H L (.qb r)) :
    ∀ bs, RefsInL S bs → AddsTameL bs → ∀ b ∈ bs, Builds H L b
  | [], _, _ => fun _ h => absurd h List.not_mem_nil
  | b :: bs, hr, ha => fun c h => (List.mem_cons.1 h).elim (fun h => h ▸ builder_ends hq b hr.1 ha.1) (builders_end hq bs hr.2 ha.2 c)
theorem prog_ends {H : List QB → Prop} {L : GoLib} {S : Nat → Prop} (hq : ∀ r, S r → Builds H L (.qb r)) :
    ∀ p, RefsInP S p → AddsTameP p → ∀ ctx, TameCtx ctx → ∀ s, H s.heap → Finishes H (fun n => runProg L (run L n) ctx p) s
  | .ret _, _, _ => fun _ _ _ hs => .pure hs
  | .fail _, _, _ => fun _ _ _ hs => .err hs
  | .panic _ _, _, _ => fun _ _ _ hs => .panic hs
  | .commit v k, hr, ha => fun ctx hb s hs => (commitArg_ends v hs).bind (k := fun n t => runProg L (run L n) ctx (k t))
      fun t s1 h1 => prog_ends hq (k t) (hr t) (ha t) ctx hb s1 h1
  | .args k, hr, ha => fun ctx hb s hs => prog_ends hq (k s.store.args) (hr _) (ha _) ctx hb s hs
  | .build b k, hr, ha => fun ctx hb s hs => (then_ends (k := fun n r => runProg L (run L n) ctx (k r))
      (builder_ends hq b hr.1 ha.1 ctx hb s hs) fun r s1 h1 => prog_ends hq (k r) (hr.2 r) (ha.2 r) ctx hb s1 h1).congr
        fun n => by
          rw [runProg]; dsimp only; rcases run L n ctx (.build b) s with ⟨o, s1⟩; cases o <;> rfl
  | .buildWith fm b k, hr, ha => fun ctx hb s hs => by
    cases hcf : contextWithFuncs L ctx fm with
    | error e =>
      refine (prog_ends hq (k (.error e)) (hr.2.2 _) (ha.2.2 _) ctx hb s hs).congr fun n => ?_
      rw [runProg, hcf]
    | ok ctx' =>
      refine (then_ends (k := fun n r => runProg L (run L n) ctx (k r)) (builder_ends hq b hr.2.1 ha.2.1 ctx' (tameCtx_funcs hb ha.1 hcf) s hs)
        fun r s1 h1 => prog_ends hq (k r) (hr.2.2 r) (ha.2.2 r) ctx hb s1 h1).congr fun n => ?_
      rw [runProg, hcf]; dsimp only; rcases run L n ctx' (.build b) s with ⟨o, s1⟩; cases o <;> rfl
  | .query style b k, hr, ha => fun ctx hb s hs => by
    have h := (own_ends (style := style) (s := s) (builder_ends hq b hr.1 ha.1 rootCtx rootCtx_builtin.tame _ hs)).bind
      (k := fun n r => runProg L (run L n) ctx (k r)) fun r s1 h1 => prog_ends hq (k r) (hr.2 r) (ha.2 r) ctx hb s1 h1
    refine h.congr fun n => ?_
    rw [runProg, newContext_eq]
end

/-! ## Query builders -/

/-- Everything in the query builder can be built. -/
def PartsBuild (H : List QB → Prop) (L : GoLib) (b : QB) : Prop := ∀ c ∈ partsOf b, Builds H L c

section
variable {α β : Type} {H : List QB → Prop} {L : GoLib}

theorem getQB_ends (r : Nat) {k : Nat → QB → M β} {s : St} (hs : H s.heap)
    (hk : ∀ b, s.heap[r]? = some b → Finishes H (fun n => k n b) s) : Finishes H (fun n => M.bind (getQB r) (k n)) s := by
  cases hb : s.heap[r]? with
  | none => exact .congr (.panic (p := .nilDereference) hs) fun n => by simp [getQB, M.bind, hb, M.panic]
  | some b => exact .congr (hk b hb) fun n => by simp [getQB, M.bind, hb]

theorem modifyQB_ends (r : Nat) (g : QB → QB) {s : St} (hs : H s.heap)
    (hg : ∀ b, s.heap[r]? = some b → H (s.heap.set r (g b))) : Finishes H (fun _ => modifyQB r g) s := by
  cases hb : s.heap[r]? with
  | none => exact .const (by simp [modifyQB, hb]) (by simpa [modifyQB, hb] using hs)
  | some b => exact .const (by simp [modifyQB, hb]) (by simpa [modifyQB, hb] using hg b hb)

theorem collectM_ends {f : Nat → α → M (Option Str)} (as : List α) (hf : ∀ a ∈ as, ∀ s, H s.heap → Finishes H (fun n => f n a) s) :
    ∀ s, H s.heap → Finishes H (fun n => collectM (f n) as) s := by
  induction as with
  | nil => intro s hs; exact .pure hs
  | cons a as ih =>
    intro s hs
    refine (hf a (List.mem_cons_self ..) s hs).bind (k := fun n o => M.bind (collectM (f n) as) fun l => .pure (o.toList ++ l)) fun o s1 h1 => ?_
    exact (ih (fun a ha => hf a (List.mem_cons_of_mem _ ha)) s1 h1).bind (k := fun _ l => .pure (o.toList ++ l)) fun _ _ h => .pure h

variable {ctx : Ctx} (hctx : TameCtx ctx) {b : QB} (hp : PartsBuild H L b)
include hctx hp

theorem buildCTEs_ends (dep : Deps) {s : St} (hs : H s.heap) : Finishes H (fun n => buildCTEs (run L n) ctx b dep) s := by
  refine (collectM_ends b.ctes (f := fun n c => if (⟨c.name, []⟩ : TableAliased) ∉ dep then .pure none
      else M.bind (.wrapErr c.name (run L n ctx (.build c.builder))) fun q =>
        .pure (if q = [] then none else some (c.name ++ lit " AS (" ++ q ++ lit ")"))) ?_ s hs).bind
    (k := fun _ clauses => .pure (if clauses.length = 0 then [] else lit "With " ++ strJoin (lit ", ") clauses)) fun _ _ h => .pure h
  intro c hc s hs
  by_cases h : (⟨c.name, []⟩ : TableAliased) ∉ dep
  · simp only [if_pos h]; exact .pure hs
  · simp only [if_neg h]
    have hc' : c.builder ∈ partsOf b := by
      simp only [partsOf, List.mem_append, List.mem_map]
      exact .inl (.inl (.inl (.inl (.inl (.inl (.inl ⟨c, hc, rfl⟩))))))
    exact (hp _ hc' ctx hctx s hs).wrapErr.bind (k := fun _ q => .pure (if q = [] then none else some (c.name ++ lit " AS (" ++ q ++ lit ")")))
      fun _ _ h => .pure h

theorem buildFrom_ends (dep : Deps) {s : St} (hs : H s.heap) : Finishes H (fun n => buildFrom L (run L n) n ctx b dep) s := by
  refine (collectM_ends b.tableList (f := fun n t => if b.distinct ∧ t.optional ∧ t.names ∉ dep then .pure none
      else M.bind (.wrapErr t.names.name (match t.fragment with
        | some f => buildFragment L (run L n) n ctx f
        | none => .pure [])) fun c => .pure (some c)) ?_ s hs).bind
    (k := fun _ tables => .pure (lit "FROM " ++ strJoin (lit " ") tables)) fun _ _ h => .pure h
  intro t ht s hs
  by_cases h : b.distinct ∧ t.optional ∧ t.names ∉ dep
  · simp only [if_pos h]; exact .pure hs
  · simp only [if_neg h]
    have hc' : rowBuilder t ∈ partsOf b := by
      simp only [partsOf, List.mem_append, List.mem_map]
      exact .inl (.inl (.inl (.inl (.inl (.inl (.inr ⟨t, ht, rfl⟩))))))
    have := hp _ hc' ctx hctx s hs
    refine Finishes.bind (m := fun n => M.wrapErr t.names.name (match t.fragment with
        | some f => buildFragment L (run L n) n ctx f
        | none => .pure [])) (k := fun _ c => .pure (some c)) (Finishes.wrapErr ?_) fun _ _ h => .pure h
    cases hf : t.fragment with
    | none => exact .pure hs
    | some f =>
      rw [rowBuilder, hf] at this
      obtain ⟨r, h1, h2⟩ := this
      exact ⟨r, Ev.run.1 h1, h2⟩

theorem buildUnion_ends {s : St} (hs : H s.heap) : Finishes H (fun n => buildUnion (run L n) ctx b.unions) s := by
  refine (collectM_ends b.unions (f := fun n u => M.bind (run L n ctx (.build u)) fun q =>
      .pure (if q = [] then none else some q)) ?_ s hs).bind
    (k := fun _ clauses => .pure (lit "UNION (" ++ strJoin (lit ") UNION (") clauses ++ lit ")")) fun _ _ h => .pure h
  intro u hu s hs
  have hc' : u ∈ partsOf b := by simp only [partsOf, List.mem_append]; exact .inr hu
  exact (hp _ hc' ctx hctx s hs).bind (k := fun _ q => .pure (if q = [] then none else some q)) fun _ _ h => .pure h

theorem part_ends {f : Fragment} (hf : ∀ c ∈ f.frags, c ∈ partsOf b) {s : St} (hs : H s.heap) :
    Finishes H (fun n => buildFragment L (run L n) n ctx f) s :=
  fragment_ends hctx f (fun c hc => hp c (hf c hc)) hs

end

theorem orderItems_parts {P : Builder → Prop} (hP : ∀ c raw, P c → P (.frag (.Ff raw [c]))) (hF : ∀ raw, P (.frag (.F raw)))
    (distinct : Bool) (items : List OrderItem) (h : ∀ it ∈ items, P it.column) (i : Nat) :
    (∀ c ∈ (orderItems distinct i items).1, P c) ∧ ∀ c ∈ (orderItems distinct i items).2.1, P c := by
  induction items generalizing i with
  | nil => exact ⟨fun c hc => absurd hc List.not_mem_nil, fun c hc => absurd hc List.not_mem_nil⟩
  | cons it items ih =>
    obtain ⟨h1, h2⟩ := ih (fun it hi => h it (List.mem_cons_of_mem _ hi)) (i + 1)
    have hit := h it (List.mem_cons_self ..)
    unfold orderItems
    dsimp only
    split
    · exact ⟨h1, h2⟩
    · split
      · refine ⟨fun c hc => ?_, h2⟩
        rcases List.mem_cons.1 hc with rfl | hc
        · exact hP _ _ hit
        · exact h1 c hc
      · refine ⟨fun c hc => ?_, fun c hc => ?_⟩
        · rcases List.mem_cons.1 hc with rfl | hc
          · exact hF _
          · exact h1 c hc
        · rcases List.mem_cons.1 hc with rfl | hc
          · exact hP _ _ hit
          · exact h2 c hc

/-- What is in a query builder refers to query builders with lower numbers, and adds tame functions only. -/
def LowIn (rank : Nat → Nat) (r : Nat) (c : Builder) : Prop := RefsIn (fun q => rank q < rank r) c ∧ AddsTame c

/-- All query builders are so. -/
def AllLow (rank : Nat → Nat) (heap : List QB) : Prop := ∀ r b, heap[r]? = some b → ∀ c ∈ partsOf b, LowIn rank r c

theorem AllLow.set {rank : Nat → Nat} {heap : List QB} (h : AllLow rank heap) {r : Nat} {b : QB}
    (hb : ∀ c ∈ partsOf b, LowIn rank r c) : AllLow rank (heap.set r b) := by
  intro q b' hq
  rw [List.getElem?_set] at hq
  split at hq
  · rename_i h1
    subst h1
    split at hq
    · cases hq; exact hb
    · cases hq
  · exact h q b' hq

theorem lowIn_frag {rank : Nat → Nat} {r : Nat} {c : Builder} (raw : Str) (h : LowIn rank r c) : LowIn rank r (.frag (.Ff raw [c])) :=
  ⟨⟨h.1, trivial⟩, ⟨h.2, trivial⟩⟩

theorem lowIn_text {rank : Nat → Nat} {r : Nat} (raw : Str) : LowIn rank r (.frag (.F raw)) := ⟨trivial, trivial⟩

theorem mem_partsOf_iff {b : QB} {c : Builder} : c ∈ partsOf b ↔ (∃ x ∈ b.ctes, x.builder = c) ∨ (∃ t ∈ b.tableList, rowBuilder t = c) ∨
    c ∈ b.conditions.frags ∨ c ∈ b.groupbys.frags ∨ (∃ o ∈ b.orders, o.column = c) ∨ c ∈ b.selects.frags ∨ c ∈ b.touches.frags ∨ c ∈ b.unions := by
  simp only [partsOf, List.mem_append, List.mem_map, or_assoc]


theorem qb_builds {L : GoLib} {rank : Nat → Nat} (r : Nat) (hq : ∀ q, rank q < rank r → Builds (AllLow rank) L (.qb q)) :
    Builds (AllLow rank) L (.qb r) := by
  have low : ∀ c, LowIn rank r c → Builds (AllLow rank) L c := fun c h => builder_ends hq c h.1 h.2
  intro ctx hctx s hs
  refine Finishes.run ?_
  have parts : ∀ s : St, AllLow rank s.heap → ∀ b, s.heap[r]? = some b → PartsBuild (AllLow rank) L b := fun s hs b hb c hc => low c (hs r b hb c hc)
  show Finishes (AllLow rank) (fun n => buildInternal L (run L n) n ctx r) s
  unfold buildInternal
  refine getQB_ends r hs fun b hb => ?_
  by_cases he : b.errors.length ≠ 0
  · simp only [if_pos he]; exact .err hs
  simp only [if_neg he]
  refine Finishes.bind (m := fun _ => M.ofOut b.collectDependencies) (.const (collectDependencies_not_oof b) hs) fun dep s1 h1 => ?_
  refine (buildCTEs_ends hctx (parts s hs b hb) dep h1).bind fun sq s2 h2 => ?_
  refine getQB_ends r h2 fun b hb => ?_
  refine (buildFrom_ends hctx (parts s2 h2 b hb) dep h2).bind fun from_ s3 h3 => ?_
  refine getQB_ends r h3 fun b hb => ?_
  refine (part_ends hctx (parts s3 h3 b hb) (f := b.conditions) (fun c hc => mem_partsOf_iff.2 (.inr (.inr (.inl hc)))) h3).bind fun where_ s4 h4 => ?_
  refine getQB_ends r h4 fun b hb => ?_
  refine (part_ends hctx (parts s4 h4 b hb) (f := b.groupbys) (fun c hc => mem_partsOf_iff.2 (.inr (.inr (.inr (.inl hc))))) h4).bind fun groupby s5 h5 => ?_
  refine Finishes.bind (m := fun n => buildOrders L (run L n) n ctx r) ?_ fun order s6 h6 => ?_
  · unfold buildOrders
    refine getQB_ends r h5 fun b hb => ?_
    have hcol : ∀ it ∈ b.orders, LowIn rank r it.column := fun it hi =>
      h5 r b hb _ (mem_partsOf_iff.2 (.inr (.inr (.inr (.inr (.inl ⟨it, hi, rfl⟩))))))
    obtain ⟨ho1, ho2⟩ := orderItems_parts (P := LowIn rank r) (fun c raw h => lowIn_frag raw h) (fun raw => lowIn_text raw) b.distinct b.orders hcol 0
    refine Finishes.bind (modifyQB_ends r _ h5 fun b' hb' => ?_) fun _ s6 h6 => ?_
    · refine h5.set fun c hc => ?_
      rw [hb] at hb'
      cases hb'
      rw [mem_partsOf_iff] at hc
      simp only [appendFragments_frags, List.mem_append] at hc
      rcases hc with h | h | h | h | h | h | (h | h) | h
      · exact h5 r b hb c (mem_partsOf_iff.2 (.inl h))
      · exact h5 r b hb c (mem_partsOf_iff.2 (.inr (.inl h)))
      · exact h5 r b hb c (mem_partsOf_iff.2 (.inr (.inr (.inl h))))
      · exact h5 r b hb c (mem_partsOf_iff.2 (.inr (.inr (.inr (.inl h)))))
      · exact h5 r b hb c (mem_partsOf_iff.2 (.inr (.inr (.inr (.inr (.inl h))))))
      · exact h5 r b hb c (mem_partsOf_iff.2 (.inr (.inr (.inr (.inr (.inr (.inl h)))))))
      · exact h5 r b hb c (mem_partsOf_iff.2 (.inr (.inr (.inr (.inr (.inr (.inr (.inl h))))))))
      · exact ho2 c h
      · exact h5 r b hb c (mem_partsOf_iff.2 (.inr (.inr (.inr (.inr (.inr (.inr (.inr h))))))))
    · refine fragment_ends hctx _ (fun c hc => low c ?_) h6
      rw [appendFragments_frags, withPrefix_frags, List.mem_append] at hc
      rcases hc with hc | hc
      · cases hc
      · exact ho1 c hc
  refine getQB_ends r h6 fun b hb => ?_
  refine Finishes.bind (m := fun n => buildSelects L (run L n) n ctx r) ?_ fun sel s7 h7 => ?_
  · unfold buildSelects
    refine Finishes.bind (modifyQB_ends r _ h6 fun b' hb' => ?_) fun _ s7 h7 => ?_
    · refine h6.set fun c hc => h6 r b' hb' c ?_
      rw [mem_partsOf_iff] at hc ⊢
      simp only [withPrefix_frags] at hc
      exact hc
    refine getQB_ends r h7 fun b hb => ?_
    refine (part_ends hctx (parts s7 h7 b hb) (f := b.selects)
      (fun c hc => mem_partsOf_iff.2 (.inr (.inr (.inr (.inr (.inr (.inl hc))))))) h7).bind fun sel s8 h8 => ?_
    refine getQB_ends r h8 fun b hb => ?_
    refine (part_ends hctx (parts s8 h8 b hb) (f := b.touches)
      (fun c hc => mem_partsOf_iff.2 (.inr (.inr (.inr (.inr (.inr (.inr (.inl hc)))))))) h8).bind fun touches s9 h9 => ?_
    by_cases h0 : sel = []
    · simp only [if_pos h0]; exact .err h9
    · simp only [if_neg h0]; exact .pure h9
  refine getQB_ends r h7 fun b' hb' => ?_
  refine Finishes.bind (m := fun n => if b'.unions.length > 0 then
      M.bind (buildUnion (run L n) ctx b'.unions) fun union => .pure (trimSpace (trimSpace (strJoin (lit " ") (nonEmpty sq ++ [sel] ++ nonEmpty from_ ++ nonEmpty where_ ++ nonEmpty groupby
    ++ nonEmpty order ++ (if b.limit > 0 then [lit "LIMIT " ++ itoa b.limit] else []) ++ (if b.offset > 0 then [lit "OFFSET " ++ itoa b.offset] else []))) ++ lit " " ++ union))
    else .pure (trimSpace (strJoin (lit " ") (nonEmpty sq ++ [sel] ++ nonEmpty from_ ++ nonEmpty where_ ++ nonEmpty groupby
    ++ nonEmpty order ++ (if b.limit > 0 then [lit "LIMIT " ++ itoa b.limit] else []) ++ (if b.offset > 0 then [lit "OFFSET " ++ itoa b.offset] else []))))) ?_ fun q s8 h8 => ?_
  · by_cases hu : b'.unions.length > 0
    · simp only [if_pos hu]
      exact (buildUnion_ends hctx (parts s7 h7 b' hb') h7).bind fun _ _ h => .pure h
    · simp only [if_neg hu]; exact .pure h7
  refine getQB_ends r h8 fun b hb => ?_
  refine Finishes.bind (m := fun _ => if b.debug then debugLog L q else .pure ()) ?_ fun _ _ h => .pure h
  by_cases hd : b.debug = true
  · simp only [if_pos hd]
    refine .const ?_ ?_ <;> (unfold debugLog; have := interpolate_not_oof L rfc3339 q s8.store.args; split) <;> first
      | exact h8
      | (intro h; cases h; done)
      | (rename_i h; exact absurd h this)
  · simp only [if_neg hd]; exact .pure h8

/-- All query builders of such a memory can be built. -/
theorem all_build {L : GoLib} {rank : Nat → Nat} (r : Nat) : Builds (AllLow rank) L (.qb r) := by
  suffices H : ∀ k r, rank r < k → Builds (AllLow rank) L (.qb r) from H (rank r + 1) r (by omega)
  intro k
  induction k with
  | zero => intro r h; omega
  | succ k ih => intro r h; exact qb_builds r fun q hq => ih q (by omega)

end Sqlf
