import Verif.Proofs.DocText
import Verif.Proofs.Short
import Verif.Model.Eval
/-!
# The evaluator computes the meaning of builder trees
-/

namespace Sqlf
open Spec

/-- The parser as the specification uses it. -/
def parseO (L : GoLib) (s : Str) : Option (List Expr) := (parse L s).toOption

/-- An outcome of the code matches an outcome of the specification. -/
def Matches (ps : List Str) : Res Doc → Out Str → Prop
  | .ok d, .ok t => t = renderDoc ps d ∧ InRange ps d
  | .invalidIndex, .err e => e.isInvalidIndex = true
  | .error, .err e => e.isInvalidIndex = false
  | .panic, .panic p => p.toErr.isInvalidIndex = false
  | _, _ => False

/-- The argument store to start with, and what is kept about the query builders and the log. -/
structure World where
  s0 : Store
  keep : List QB → List Str → Prop

/-- The state corresponds to the session. -/
structure Rel (W : World) (ps : List Str) (s : St) (cs : Session) : Prop where
  keep : W.keep s.heap s.log
  store : commitAll W.s0 cs.log = some (ps, s.store)
  usedA : ∀ k : Nat, k ∈ s.usedA ↔ Ref.arg ((k : Int) + 1) ∈ cs.used
  usedF : ∀ k : Nat, k ∈ s.usedF ↔ Ref.frag ((k : Int) + 1) ∈ cs.used

/-- Results correspond, for a run from `s` and `cs`. -/
structure AfterAt (W : World) (ps : List Str) (s : St) (cs : Session) (r : Out Str × St)
    (c : Res Doc × Session) (ps' : List Str) : Prop where
  rel : Rel W ps' r.2 c.2
  pre : ps <+: ps'
  logPre : cs.log <+: c.2.log
  out : Matches ps' c.1 r.1

def After (W : World) (ps : List Str) (s : St) (cs : Session) (r : Out Str × St)
    (c : Res Doc × Session) : Prop := ∃ ps', AfterAt W ps s cs r c ps'

theorem After.of_same {W : World} {ps : List Str} {s : St} {cs : Session} (h : Rel W ps s cs)
    {o : Out Str} {c : Res Doc} (hm : Matches ps c o) : After W ps s cs (o, s) (c, cs) :=
  ⟨ps, h, List.prefix_rfl, List.prefix_rfl, hm⟩

theorem After.trans {W : World} {ps ps1 : List Str} {s s1 : St} {cs cs1 : Session}
    {r : Out Str × St} {c : Res Doc × Session} (hp : ps <+: ps1) (hl : cs.log <+: cs1.log)
    (h : After W ps1 s1 cs1 r c) :
    After W ps s cs r c := by
  obtain ⟨ps2, h⟩ := h
  exact ⟨ps2, h.rel, hp.trans h.pre, hl.trans h.logPre, h.out⟩

/-- Sequencing. -/
theorem After.bind {W : World} {ps : List Str} {s : St} {cs : Session} {m : M Str} {c : Step Doc}
    {k : Str → M Str} {k' : Doc → Step Doc} (h : After W ps s cs (m s) (c cs))
    (hk : ∀ ps' s' cs' d, ps <+: ps' → Rel W ps' s' cs' → InRange ps' d →
      After W ps' s' cs' (k (renderDoc ps' d) s') (k' d cs')) :
    After W ps s cs (M.bind m k s) (Step.bind c k' cs) := by
  obtain ⟨ps', h⟩ := h
  unfold M.bind Step.bind
  rcases hr : m s with ⟨o, s'⟩
  rcases hc : c cs with ⟨d, cs'⟩
  rw [hr, hc] at h
  have ho := h.out
  cases d <;> cases o <;> simp only [Matches] at ho
  · obtain ⟨rfl, hd⟩ := ho
    exact After.trans h.pre h.logPre (hk ps' s' cs' _ h.pre h.rel hd)
  · exact ⟨ps', h.rel, h.pre, h.logPre, ho⟩
  · exact ⟨ps', h.rel, h.pre, h.logPre, ho⟩
  · exact ⟨ps', h.rel, h.pre, h.logPre, ho⟩

theorem After.wrap {W : World} {ps : List Str} {s : St} {cs : Session} {m : M Str}
    {c : Res Doc × Session} (w : Str) (h : After W ps s cs (m s) c) :
    After W ps s cs (M.wrapErr w m s) c := by
  obtain ⟨ps', h⟩ := h
  unfold M.wrapErr
  rcases hr : m s with ⟨o, s'⟩
  rw [hr] at h
  have ho := h.out
  cases o with
  | err e =>
    refine ⟨ps', h.rel, h.pre, h.logPre, ?_⟩
    rcases c with ⟨d, cs'⟩
    cases d <;> simpa [Matches, Err.isInvalidIndex] using ho
  | ok t => exact ⟨ps', h⟩
  | panic p => exact ⟨ps', h⟩
  | oof => exact ⟨ps', h⟩

/-- A function call: panics become errors. -/
theorem After.contain {W : World} {ps : List Str} {s : St} {cs : Session} {m : M Str}
    {c : Step Doc} (w : Str) {outs : List GoType} (hlen : outs.length ≠ 0)
    (h : After W ps s cs (m s) (c cs)) :
    After W ps s cs
      (M.wrapErr w (safeCall (M.bind m fun t => .pure (outString outs t))) s) (c.contain cs) := by
  apply After.wrap
  obtain ⟨ps', h⟩ := h
  unfold safeCall M.bind Step.contain
  rcases hr : m s with ⟨o, s'⟩
  rcases hc : c cs with ⟨d, cs'⟩
  rw [hr, hc] at h
  have ho := h.out
  cases d <;> cases o <;> simp only [Matches] at ho
  · have hs : ∀ t, outString outs t = t := fun t => by simp [outString, hlen]
    refine ⟨ps', h.rel, h.pre, h.logPre, ?_⟩
    dsimp only
    rw [hs]
    exact ho
  · exact ⟨ps', h.rel, h.pre, h.logPre, ho⟩
  · exact ⟨ps', h.rel, h.pre, h.logPre, ho⟩
  · exact ⟨ps', h.rel, h.pre, h.logPre, ho⟩

/-! ## Arguments and fragments -/

theorem commit_sim {W : World} {ps : List Str} {s : St} {cs : Session} (h : Rel W ps s cs)
    (v : Val) : After W ps s cs (commitArg v s) (commitDoc (badFor W.s0) v cs) := by
  have hd := (commitAll_prefix h.store).2
  unfold commitArg commitDoc
  by_cases hb : badFor W.s0 v = true
  · rw [if_pos hb]
    have : s.store.commit v = none := by
      rw [commit_none_iff]; unfold badFor at hb ⊢; rw [hd]; exact hb
    rw [this]
    exact After.of_same h rfl
  · rw [if_neg hb]
    cases hc : s.store.commit v with
    | none =>
      rw [commit_none_iff] at hc
      unfold badFor at hb hc
      rw [hd] at hc
      exact absurd hc hb
    | some q =>
      obtain ⟨p, st⟩ := q
      refine ⟨ps ++ [p], ⟨h.keep, ?_, h.usedA, h.usedF⟩, List.prefix_append _ _, List.prefix_append _ _, ?_⟩
      · show commitAll W.s0 (cs.log ++ [v]) = _
        rw [commitAll_snoc, h.store]
        simp [hc]
      · have hl := commitAll_length h.store
        refine ⟨?_, ?_⟩
        · rw [← hl]; simp [renderDoc]
        · rw [← hl]; intro k hk; simp [binds] at hk; simp [hk]

theorem position_item {α : Type} (i : Int) (l : List α) :
    (position i l.length = none ∧ item? i l = none) ∨
    ∃ k v, position i l.length = some k ∧ l[k]? = some v ∧ item? i l = some v ∧
      i = (k : Int) + 1 := by
  unfold position item?
  by_cases h : i < 1 ∨ i > l.length
  · left
    rw [if_pos h]
    refine ⟨rfl, ?_⟩
    split
    · rw [List.getElem?_eq_none_iff]; omega
    · rfl
  · right
    rw [if_neg h]
    have hlt : (i - 1).toNat < l.length := by omega
    have h1 : 1 ≤ i := by omega
    refine ⟨(i - 1).toNat, l[(i - 1).toNat], rfl, List.getElem?_eq_getElem hlt, ?_, by omega⟩
    rw [if_pos h1, List.getElem?_eq_getElem hlt]

theorem Rel.markA {W : World} {ps : List Str} {s : St} {cs : Session} (h : Rel W ps s cs)
    (k : Nat) : Rel W ps { s with usedA := k :: s.usedA }
      { cs with used := .arg ((k : Int) + 1) :: cs.used } where
  keep := h.keep
  store := h.store
  usedA j := by
    simp only [List.mem_cons, Ref.arg.injEq, h.usedA j]
    constructor
    · rintro (rfl | h) <;> simp [*]
    · rintro (h | h)
      · left; omega
      · right; exact h
  usedF j := by simp [h.usedF j]

theorem Rel.markF {W : World} {ps : List Str} {s : St} {cs : Session} (h : Rel W ps s cs)
    (k : Nat) : Rel W ps { s with usedF := k :: s.usedF }
      { cs with used := .frag ((k : Int) + 1) :: cs.used } where
  keep := h.keep
  store := h.store
  usedF j := by
    simp only [List.mem_cons, Ref.frag.injEq, h.usedF j]
    constructor
    · rintro (rfl | h) <;> simp [*]
    · rintro (h | h)
      · left; omega
      · right; exact h
  usedA j := by simp [h.usedA j]

theorem argBuild_sim {W : World} {ps : List Str} {s : St} {cs : Session} (h : Rel W ps s cs)
    (fr : Frame) (sc : Scope) (ha : sc.args = fr.args) (i : Int) :
    After W ps s cs (argBuild fr i s) (argDoc (badFor W.s0) sc i cs) := by
  unfold argBuild argDoc
  rw [ha]
  rcases position_item i fr.args with ⟨h1, h2⟩ | ⟨k, v, h1, h2, h3, h4⟩
  · rw [h1, h2]
    exact After.of_same h rfl
  · rw [h1, h3]
    subst h4
    show After W ps s cs ((match fr.args[k]? with
      | some v => commitArg v
      | none => M.panic .indexOutOfRange) { s with usedA := k :: s.usedA }) _
    rw [h2]
    have := commit_sim (h.markA k) v
    exact After.trans (s1 := { s with usedA := k :: s.usedA })
      (cs1 := { cs with used := .arg ((k : Int) + 1) :: cs.used })
      List.prefix_rfl List.prefix_rfl this

/-- Building a builder corresponds to its meaning. -/
def BuildSim (W : World) (m : M Str) (f : Sem) : Prop :=
  ∀ ps s log, commitAll W.s0 log = some (ps, s.store) → W.keep s.heap s.log →
    ∃ ps', commitAll W.s0 (f log).2 = some (ps', (m s).2.store) ∧
      (W.keep (m s).2.heap (m s).2.log ∧ (m s).2.usedA = s.usedA ∧ (m s).2.usedF = s.usedF) ∧
      ps <+: ps' ∧ log <+: (f log).2 ∧ Matches ps' (f log).1 (m s).1

theorem fragmentBuild_sim {W : World} {ps : List Str} {s : St} {cs : Session}
    (h : Rel W ps s cs) (rec : Rec) (ctx : Ctx) (fr : Frame) (sc : Scope)
    (hl : sc.frags.length = fr.frags.length)
    (hc : ∀ (k : Nat) b f, fr.frags[k]? = some b → sc.frags[k]? = some f →
      BuildSim W (rec ctx (.build b)) f) (i : Int) :
    After W ps s cs (fragmentBuild rec ctx fr i s) (fragDoc sc i cs) := by
  unfold fragmentBuild fragDoc
  rcases position_item i fr.frags with ⟨h1, h2⟩ | ⟨k, b, h1, h2, h3, h4⟩
  · rcases position_item i sc.frags with ⟨h1', h2'⟩ | ⟨k, b, h1', h2', h3', h4'⟩
    · rw [h1, h2']
      exact After.of_same h rfl
    · rw [hl, h1] at h1'; cases h1'
  · rcases position_item i sc.frags with ⟨h1', h2'⟩ | ⟨k', f, h1', h2', h3', h4'⟩
    · rw [hl, h1] at h1'; cases h1'
    · rw [h1, h3']
      have : k' = k := by omega
      subst this
      subst h4
      show After W ps s cs ((match fr.frags[k']? with
        | some b => rec ctx (.build b)
        | none => M.panic .indexOutOfRange) { s with usedF := k' :: s.usedF }) _
      rw [h2]
      have hm := h.markF k'
      obtain ⟨ps', hs, ⟨hk, hA, hF⟩, hp, hlg, hout⟩ := hc k' b f h2 h2' ps _ _ hm.store hm.keep
      dsimp only at hs hk hA hF hp hlg hout ⊢
      generalize rec ctx (.build b) { s with usedF := k' :: s.usedF } = r at hs hk hA hF hout
      refine ⟨ps', ⟨hk, hs, ?_, ?_⟩, hp, hlg, hout⟩
      · intro j; rw [hA]; exact hm.usedA j
      · intro j; rw [hF]; exact hm.usedF j

/-! ## Calls of built-in functions -/

def indexInfo (name : Str) (b : Builtin) : FuncInfo :=
  { name, ins := [.context, .num .int 0], variadic := false, outs := [.string 0, .error],
    body := .builtin b }

def joinInfo : FuncInfo :=
  { name := lit "join", ins := [.context, .string 0, .string 0, .slice (.num .int 0)],
    variadic := true, outs := [.string 0, .error], body := .builtin .join }

/-- The functions visible in the context are the built-in ones. -/
def BuiltinCtx (ctx : Ctx) : Prop := ∀ name, ctx.fn name =
  if name = lit "arg" then some (indexInfo (lit "arg") .arg)
  else if name = lit "f" then some (indexInfo (lit "f") .fragment)
  else if name = lit "fragment" then some (indexInfo (lit "fragment") .fragment)
  else if name = lit "join" then some joinInfo
  else none

theorem evalCall_index (L : GoLib) (rec : Rec) (fuel : Nat) (ctx : Ctx) (name : Str) (b : Builtin)
    (args : List CallArg) :
    (∃ vs, indexArg L args = some ((vs.getD 0 .context).toInt L) ∧
      evalCall L rec fuel ctx (indexInfo name b) args =
        .wrapErr name (safeCall (M.bind (callBody L rec fuel ctx (.builtin b) vs)
          fun s => .pure (outString [.string 0, .error] s)))) ∨
    (indexArg L args = none ∧ ∃ e, e.isInvalidIndex = false ∧
      evalCall L rec fuel ctx (indexInfo name b) args = .err e) := by
  match args with
  | [] => exact .inr ⟨rfl, .wrongArgCount name, rfl, rfl⟩
  | [.num x] => exact .inl ⟨[.num .int (.num x)], rfl, rfl⟩
  | [.int x] => exact .inl ⟨[.num .int (.int x)], rfl, rfl⟩
  | [.nil] => exact .inr ⟨rfl, .argType name, rfl, rfl⟩
  | [.bool _] => exact .inr ⟨rfl, .argType name, rfl, rfl⟩
  | [.str _] => exact .inr ⟨rfl, .argType name, rfl, rfl⟩
  | _ :: _ :: l =>
    refine .inr ⟨by simp [indexArg], .wrongArgCount name, rfl, ?_⟩
    have h : FuncInfo.arityOk (indexInfo name b) (l.length + 1 + 1) = false := by
      simp [FuncInfo.arityOk, indexInfo, FuncInfo.inContextFirst, FuncInfo.nIn]
    unfold evalCall
    simp only [List.length_cons, h]
    rfl

theorem evalArgs_ints (L : GoLib) (as : List CallArg) :
    (∃ vs is, intArgs L as = .ok is ∧ evalArgs (List.replicate as.length (.num .int 0)) as = .ok vs ∧
      vs.map (·.toInt L) = is ∧ callAssignable (List.replicate as.length (.num .int 0)) vs = true) ∨
    (intArgs L as = .error ∧ ∃ e, evalArgs (List.replicate as.length (.num .int 0)) as = .err e) := by
  induction as with
  | nil => exact .inl ⟨[], [], rfl, rfl, rfl, rfl⟩
  | cons a as ih =>
    simp only [List.length_cons, List.replicate_succ, evalArgs, intArgs]
    have hk : ∀ (v : ArgVal) (i : Int) , v.toInt L = i →
        evalArg (.num .int 0) a = .ok v → intArg L a = .ok i →
        (∃ vs is, ((intArg L a).bind fun i => (intArgs L as).bind fun is => Res.ok (i :: is)) = .ok is ∧
          (match evalArg (.num .int 0) a with
            | .ok v => match evalArgs (List.replicate as.length (.num .int 0)) as with
              | .ok vs => Out.ok (v :: vs)
              | .err e => .err e
              | .panic p => .panic p
              | .oof => .oof
            | .err e => .err e
            | .panic p => .panic p
            | .oof => .oof) = .ok vs ∧
          vs.map (·.toInt L) = is ∧
          callAssignable (.num .int 0 :: List.replicate as.length (.num .int 0)) vs = true) ∨
        (((intArg L a).bind fun i => (intArgs L as).bind fun is => Res.ok (i :: is)) = .error ∧
          ∃ e, (match evalArg (.num .int 0) a with
            | .ok v => match evalArgs (List.replicate as.length (.num .int 0)) as with
              | .ok vs => Out.ok (v :: vs)
              | .err e => .err e
              | .panic p => .panic p
              | .oof => .oof
            | .err e => .err e
            | .panic p => .panic p
            | .oof => .oof) = .err e) := by
      intro v i hv h1 h2
      rw [h1, h2]
      rcases ih with ⟨vs, is, h3, h4, h5, h6⟩ | ⟨h3, e, h4⟩
      · left
        rw [h3, h4]
        exact ⟨v :: vs, i :: is, rfl, rfl, by simp [hv, h5], by simp [callAssignable, h6]⟩
      · right
        rw [h3, h4]
        exact ⟨rfl, e, rfl⟩
    cases a with
    | num x => exact hk (.num .int (.num x)) (x.toInt L) rfl rfl rfl
    | int x => exact hk (.num .int (.int x)) x rfl rfl rfl
    | nil => exact .inr ⟨rfl, _, rfl⟩
    | bool _ => exact .inr ⟨rfl, _, rfl⟩
    | str _ => exact .inr ⟨rfl, _, rfl⟩

theorem evalArg_string (a : CallArg) :
    (∃ v t, strArg a = .ok t ∧ evalArg (.string 0) a = .ok v ∧ v.toStr = t ∧
      ∀ ts vs, callAssignable (.string 0 :: ts) (v :: vs) = callAssignable ts vs) ∨
    (strArg a = .panic ∧ evalArg (.string 0) a = .panic .reflectConvert) ∨
    (strArg a = .error ∧ ∃ e, evalArg (.string 0) a = .err e) := by
  cases a with
  | num x => exact .inr (.inl ⟨rfl, rfl⟩)
  | int x => exact .inl ⟨.runeStr x, [], rfl, rfl, rfl, fun _ _ => rfl⟩
  | nil => exact .inr (.inr ⟨rfl, _, rfl⟩)
  | bool _ => exact .inr (.inr ⟨rfl, _, rfl⟩)
  | str s => exact .inl ⟨.str s, s, rfl, rfl, rfl, fun _ _ => rfl⟩

theorem evalCall_join (L : GoLib) (rec : Rec) (fuel : Nat) (ctx : Ctx) (args : List CallArg) :
    (∃ t u is vs, joinArgs L args = .ok (t, u, is) ∧
      (vs.getD 0 .context).toStr = t ∧ (vs.getD 1 .context).toStr = u ∧
      (vs.drop 2).map (·.toInt L) = is ∧
      evalCall L rec fuel ctx joinInfo args =
        .wrapErr (lit "join") (safeCall (M.bind (callBody L rec fuel ctx (.builtin .join) vs)
          fun s => .pure (outString [.string 0, .error] s)))) ∨
    (joinArgs L args = .panic ∧ ∃ p, p.toErr.isInvalidIndex = false ∧
      evalCall L rec fuel ctx joinInfo args = .panic p) ∨
    (joinArgs L args = .error ∧ ∃ e, e.isInvalidIndex = false ∧
      evalCall L rec fuel ctx joinInfo args = .err e) := by
  match args with
  | [] => exact .inr (.inr ⟨rfl, .wrongArgCount _, rfl, rfl⟩)
  | [_] => exact .inr (.inr ⟨rfl, .wrongArgCount _, rfl, rfl⟩)
  | a :: b :: as =>
    have har : FuncInfo.arityOk joinInfo (a :: b :: as).length = true := by
      simp [FuncInfo.arityOk, joinInfo, FuncInfo.inContextFirst, FuncInfo.nInFixed, FuncInfo.nIn]
    have hty : FuncInfo.paramTypes joinInfo (a :: b :: as).length =
        .string 0 :: .string 0 :: List.replicate as.length (.num .int 0) := by
      simp [FuncInfo.paramTypes, joinInfo, FuncInfo.inContextFirst, GoType.elem]
    unfold evalCall
    rw [har, hty]
    simp only [Bool.not_true, Bool.false_eq_true, if_false, evalArgs, joinArgs]
    rcases evalArg_string a with ⟨v, t, h1, h2, h3, h4⟩ | ⟨h1, h2⟩ | ⟨h1, e, h2⟩
    · rw [h1, h2]
      rcases evalArg_string b with ⟨w, u, h5, h6, h7, h8⟩ | ⟨h5, h6⟩ | ⟨h5, e, h6⟩
      · rw [h5, h6]
        rcases evalArgs_ints L as with ⟨vs, is, h9, h10, h11, h12⟩ | ⟨h9, e, h10⟩
        · rw [h9, h10]
          refine .inl ⟨t, u, is, v :: w :: vs, rfl, h3, h7, h11, ?_⟩
          dsimp only
          rw [if_pos (by rw [h4, h8, h12])]
          rfl
        · rw [h9, h10]
          exact .inr (.inr ⟨rfl, .argType _, rfl, rfl⟩)
      · rw [h5, h6]
        exact .inr (.inl ⟨rfl, _, rfl, rfl⟩)
      · rw [h5, h6]
        exact .inr (.inr ⟨rfl, .argType _, rfl, rfl⟩)
    · rw [h1, h2]
      exact .inr (.inl ⟨rfl, _, rfl, rfl⟩)
    · rw [h1, h2]
      exact .inr (.inr ⟨rfl, .argType _, rfl, rfl⟩)

/-! ## `#join` -/

theorem joinCompatible_index (L : GoLib) (n : Nat) (name : Str) (s : St) :
    joinCompatible (run L (n + 1)) (indexInfo name .arg) s = (.ok true, s) ∧
    joinCompatible (run L (n + 1)) (indexInfo name .fragment) s = (.ok true, s) :=
  ⟨rfl, rfl⟩

theorem joinCompatible_join (rec : Rec) (s : St) :
    joinCompatible rec joinInfo s = (.ok false, s) := rfl

theorem joinCheck_list (L : GoLib) (n : Nat) {ctx : Ctx} (hb : BuiltinCtx ctx) (es : List Expr)
    (s : St) :
    ((bareFuncs es).all isListFunc = true ∧
      joinCheck (run L (n + 1)) ctx es s = (.ok (bareFuncs es).length, s)) ∨
    ((bareFuncs es).all isListFunc = false ∧ ∃ e, e.isInvalidIndex = false ∧
      joinCheck (run L (n + 1)) ctx es s = (.err e, s)) := by
  induction es with
  | nil => exact .inl ⟨rfl, rfl⟩
  | cons e es ih =>
    cases e with
    | plain t => simpa [bareFuncs, joinCheck] using ih
    | bindVar t i => simpa [bareFuncs, joinCheck] using ih
    | call n a => simpa [bareFuncs, joinCheck] using ih
    | func name =>
      simp only [bareFuncs, List.all_cons, List.length_cons, joinCheck]
      rw [hb name]
      have good : ∀ f, isListFunc name = true → joinCompatible (run L (n + 1)) f s = (.ok true, s) →
          ((isListFunc name && (bareFuncs es).all isListFunc) = true ∧
            (do let ok ← joinCompatible (run L (n + 1)) f
                if ok = true then do
                  let n ← joinCheck (run L (n + 1)) ctx es
                  pure (n + 1)
                else M.err (.joinIncompatible name) : M Nat) s =
              (.ok ((bareFuncs es).length + 1), s)) ∨
          ((isListFunc name && (bareFuncs es).all isListFunc) = false ∧ ∃ e, e.isInvalidIndex = false ∧
            (do let ok ← joinCompatible (run L (n + 1)) f
                if ok = true then do
                  let n ← joinCheck (run L (n + 1)) ctx es
                  pure (n + 1)
                else M.err (.joinIncompatible name) : M Nat) s = (.err e, s)) := by
        intro f h1 h2
        have h3 : (do let ok ← joinCompatible (run L (n + 1)) f
                      if ok = true then do
                        let n ← joinCheck (run L (n + 1)) ctx es
                        pure (n + 1)
                      else M.err (.joinIncompatible name) : M Nat) s =
            M.bind (joinCheck (run L (n + 1)) ctx es) (fun n => M.pure (n + 1)) s := by
          show M.bind (joinCompatible (run L (n + 1)) f) _ s = _
          unfold M.bind
          rw [h2]
          rfl
        rw [h3, h1]
        unfold M.bind
        rcases ih with ⟨h4, h5⟩ | ⟨h4, e, h5, h6⟩
        · rw [h5]; exact .inl ⟨by simp [h4], rfl⟩
        · rw [h6]; exact .inr ⟨by simp [h4], e, h5, rfl⟩
      by_cases ha : name = lit "arg"
      · rw [if_pos ha]
        exact good _ (by simp [isListFunc, ha]) (joinCompatible_index L n _ s).1
      · rw [if_neg ha]
        by_cases hf : name = lit "f"
        · rw [if_pos hf]
          exact good _ (by simp [isListFunc, hf]) (joinCompatible_index L n _ s).2
        · rw [if_neg hf]
          by_cases hg : name = lit "fragment"
          · rw [if_pos hg]
            exact good _ (by simp [isListFunc, hg]) (joinCompatible_index L n _ s).2
          · rw [if_neg hg]
            have hno : isListFunc name = false := by simp [isListFunc, ha, hf, hg]
            right
            refine ⟨by simp [hno], ?_⟩
            by_cases hj : name = lit "join"
            · rw [if_pos hj]
              exact ⟨.joinIncompatible name, rfl, rfl⟩
            · rw [if_neg hj]
              exact ⟨.joinUnknownFunc name, rfl, rfl⟩

theorem joinInst_eq (es : List Expr) (i : Int) : joinInst es i = atIndex i es := by
  induction es with
  | nil => rfl
  | cons e es ih => cases e <;> simp_all [joinInst, atIndex]

theorem short_atIndex {n : Nat} {es : List Expr} (h : Short n es) (i : Int) :
    Short n (atIndex i es) := by
  induction es with
  | nil => exact h
  | cons e es ih =>
    have h' : Short n es := fun name as hm => h name as (by simp [hm])
    cases e with
    | func f =>
      intro name as hm
      rcases List.mem_cons.1 hm with hm | hm
      · cases hm; exact .inr ⟨i, rfl⟩
      · exact ih h' name as hm
    | plain t =>
      intro name as hm
      rcases List.mem_cons.1 hm with hm | hm
      · cases hm
      · exact ih h' name as hm
    | bindVar t i =>
      intro name as hm
      rcases List.mem_cons.1 hm with hm | hm
      · cases hm
      · exact ih h' name as hm
    | call f a =>
      intro name as hm
      rcases List.mem_cons.1 hm with hm | hm
      · cases hm; exact h f a (by simp)
      · exact ih h' name as hm

theorem Short.mono {n m : Nat} {es : List Expr} (h : Short n es) (hnm : n ≤ m) : Short m es := by
  intro name as hm
  rcases h name as hm with h | h
  · exact .inl ⟨fun t ht => Nat.lt_of_lt_of_le (h.1 t ht) hnm, h.2⟩
  · exact .inr h

theorem joinAppend_sim {ps : List Str} (hm : Marks ps) {sep : Str} {acc d : Doc}
    (ha : InRange ps acc) (hd : InRange ps d) :
    joinAppend sep (renderDoc ps acc) (renderDoc ps d) = renderDoc ps (joinDoc sep acc d) ∧
      InRange ps (joinDoc sep acc d) := by
  constructor
  · have h1 := renderDoc_eq_nil hm ha
    have h2 := renderDoc_eq_nil hm hd
    unfold joinAppend joinDoc
    by_cases hd0 : d = []
    · rw [if_pos hd0, if_neg (by simp [h2.2 hd0])]
    · rw [if_neg hd0, if_pos (by simpa [h2] using hd0)]
      by_cases ha0 : acc = []
      · rw [if_pos ha0, if_neg (by simp [h1.2 ha0])]
        simp [ha0, renderDoc]
      · rw [if_neg ha0, if_pos (by simpa [h1] using ha0)]
        simp [renderDoc_append, renderDoc_ofStr]
  · intro k hk
    rw [binds_joinDoc] at hk
    rcases List.mem_append.1 hk with hk | hk
    · exact ha k hk
    · exact hd k hk

theorem item?_beyond {α : Type} {i : Int} {l : List α} (h : (l.length : Int) < i) :
    item? i l = none := by
  unfold item?
  split
  · rw [List.getElem?_eq_none_iff]; omega
  · rfl

theorem Step.bind_ok {m : Step α} {f : α → Step β} {s s' : Session} {b : β}
    (h : Step.bind m f s = (.ok b, s')) : ∃ a s1, m s = (.ok a, s1) ∧ f a s1 = (.ok b, s') := by
  unfold Step.bind at h
  split at h
  · rename_i a s1 hm
    exact ⟨a, s1, hm, h⟩
  · cases h
  · cases h
  · cases h

theorem Res.bind_ok {r : Res α} {f : α → Res β} {b : β} (h : r.bind f = .ok b) :
    ∃ a, r = .ok a ∧ f a = .ok b := by
  cases r with
  | ok a => exact ⟨a, rfl, h⟩
  | invalidIndex => cases h
  | error => cases h
  | panic => cases h

/-- A template with a list function fails for an index beyond all lists. -/
theorem clauseDoc_beyond (L : GoLib) (parse : Str → Option (List Expr)) (bad : Val → Bool)
    (sc : Scope) (depth : Nat) (es : List Expr) (i : Int)
    (hi : (max sc.args.length sc.frags.length : Nat) < i)
    (hall : (bareFuncs es).all isListFunc = true) (hne : (bareFuncs es).isEmpty = false)
    (s s' : Session) (d : Doc) :
    clauseDoc bad sc (callDoc L parse bad sc depth) (atIndex i es) s ≠ (.ok d, s') := by
  have hA : item? i sc.args = none := item?_beyond (by omega)
  have hF : item? i sc.frags = none := item?_beyond (by omega)
  induction es generalizing s s' d with
  | nil => simp [bareFuncs] at hne
  | cons e es ih =>
    intro h
    have rest : ∀ e', (bareFuncs es).all isListFunc = true → (bareFuncs es).isEmpty = false →
        clauseDoc bad sc (callDoc L parse bad sc depth) (e' :: atIndex i es) s ≠ (.ok d, s') := by
      intro e' h1 h2 h
      rw [clauseDoc] at h
      obtain ⟨a, s1, _, hb⟩ := Step.bind_ok h
      obtain ⟨a2, s2, hc, _⟩ := Step.bind_ok hb
      exact ih h1 h2 _ _ _ hc
    cases e with
    | plain t => exact rest _ hall hne h
    | bindVar t i => exact rest _ hall hne h
    | call n a => exact rest _ hall hne h
    | func name =>
      simp only [bareFuncs, List.all_cons, Bool.and_eq_true] at hall
      rw [atIndex, clauseDoc] at h
      obtain ⟨a, s1, hb, _⟩ := Step.bind_ok h
      simp only [exprDoc] at hb
      have hn := hall.1
      simp only [isListFunc, Bool.or_eq_true, decide_eq_true_eq] at hn
      unfold callDoc at hb
      by_cases ha : name = lit "arg"
      · rw [if_pos ha] at hb
        simp [indexArg, Step.contain, argDoc, hA, Step.fail] at hb
      · rw [if_neg ha] at hb
        have hf : name = lit "f" ∨ name = lit "fragment" := by
          rcases hn with (hn | hn) | hn
          · exact absurd hn ha
          · exact .inl hn
          · exact .inr hn
        rw [if_pos hf] at hb
        simp [indexArg, Step.contain, fragDoc, hF, Step.fail] at hb

/-- The main loop of `#join`, given that the clause evaluation corresponds. -/
theorem joinLoop_sim {W : World} {rec : Rec} {ctx : Ctx} {eval : List Expr → Step Doc}
    {es : List Expr} (sep : Str) (first to : Int) (items : Nat)
    (hev : ∀ i ps s cs, Rel W ps s cs →
      After W ps s cs (rec ctx (.clause (joinInst es i)) s) (eval (atIndex i es) cs))
    (hbey : ∀ (i : Int) s s' d, (items : Int) < i → eval (atIndex i es) s ≠ (.ok d, s'))
    (N n : Nat) (i : Int) (hn : 1 ≤ n) (hin : (items : Int) + 2 ≤ i + n) (hN : n ≤ N)
    {ps : List Str} {s : St} {cs : Session} (h : Rel W ps s cs) {acc : Doc} (ha : InRange ps acc) :
    After W ps s cs (joinLoop rec ctx es sep first to N i (renderDoc ps acc) s)
      (itemsDoc eval es sep first to n i acc cs) := by
  induction n generalizing N i ps s cs acc with
  | zero => omega
  | succ n ih =>
    obtain ⟨N, rfl⟩ : ∃ k, N = k + 1 := ⟨N - 1, by omega⟩
    unfold joinLoop itemsDoc
    obtain ⟨ps1, h1⟩ := hev i ps s cs h
    have hb := hbey i cs
    rcases hr : rec ctx (.clause (joinInst es i)) s with ⟨o, s1⟩
    rcases hc : eval (atIndex i es) cs with ⟨d, cs1⟩
    rw [hr, hc] at h1
    rw [hc] at hb
    have ho := h1.out
    have lift : ∀ r c, After W ps1 s1 cs1 r c → After W ps s cs r c := fun r c hx =>
      After.trans h1.pre h1.logPre hx
    have hm := commitAll_marks h1.rel.store
    cases d <;> cases o <;> simp only [Matches] at ho
    · rename_i d t
      obtain ⟨rfl, hd⟩ := ho
      have ha1 := ha.mono h1.pre
      have hj := joinAppend_sim (sep := sep) hm ha1 hd
      dsimp only
      rw [← renderDoc_mono ha h1.pre, hj.1]
      have hle : i ≤ items := by
        rcases Int.lt_or_le (items : Int) i with hlt | hge
        · exact absurd rfl (hb cs1 d hlt)
        · exact hge
      by_cases hto : to > 0 ∧ i ≥ to
      · rw [if_pos hto, if_pos hto]
        exact lift _ _ (After.of_same h1.rel ⟨rfl, hj.2⟩)
      · rw [if_neg hto, if_neg hto]
        exact lift _ _ (ih N (i + 1) (by omega) (by omega) (by omega) h1.rel hj.2)
    · dsimp only
      rw [if_pos ho]
      by_cases hto : (first > 0 ∧ i = first) ∨ (to > 0 ∧ i ≤ to)
      · rw [if_pos hto, if_pos hto]
        exact lift _ _ (After.of_same h1.rel ho)
      · rw [if_neg hto, if_neg hto]
        refine lift _ _ (After.of_same h1.rel ⟨(renderDoc_mono ha h1.pre).symm, ha.mono h1.pre⟩)
    · dsimp only
      rw [if_neg (by simp [ho])]
      exact lift _ _ (After.of_same h1.rel ho)
    · exact lift _ _ (After.of_same h1.rel ho)

/-! ## Clauses -/

/-- The context of a fragment corresponds to a scope. -/
structure Env (W : World) (L : GoLib) (ctx : Ctx) (fr : Frame) (sc : Scope) (Nch : Nat) : Prop where
  frame : ctx.frame = some fr
  fns : BuiltinCtx ctx
  args : sc.args = fr.args
  len : sc.frags.length = fr.frags.length
  child : ∀ n, Nch ≤ n → ∀ (k : Nat) b f, fr.frags[k]? = some b → sc.frags[k]? = some f →
    BuildSim W (run L n ctx (.build b)) f

/-- Number of items of a scope. -/
def Spec.Scope.items (sc : Scope) : Nat := max sc.args.length sc.frags.length

theorem mustFragment_some {ctx : Ctx} {fr : Frame} (h : ctx.frame = some fr) :
    mustFragment ctx = .pure fr := by
  unfold mustFragment; rw [h]

theorem funcJoin_sim {W : World} {L : GoLib} {ctx : Ctx} {sc : Scope}
    (hb : BuiltinCtx ctx) (m fuel depth : Nat) (hm : sc.items + 1 ≤ fuel)
    (tmpl sep : Str) (is : List Int)
    (hev : ∀ es, parse L tmpl = .ok es → ∀ i ps s cs, Rel W ps s cs →
      After W ps s cs (run L (m + 1) ctx (.clause (atIndex i es)) s)
        (clauseDoc (badFor W.s0) sc (callDoc L (parseO L) (badFor W.s0) sc depth) (atIndex i es) cs))
    {ps : List Str} {s : St} {cs : Session} (h : Rel W ps s cs) :
    After W ps s cs (funcJoin L (run L (m + 1)) fuel ctx tmpl sep is s)
      (joinCall (parseO L) (clauseDoc (badFor W.s0) sc (callDoc L (parseO L) (badFor W.s0) sc depth))
        sc.items tmpl sep is cs) := by
  unfold funcJoin joinCall
  by_cases h1 : is.length > 2
  · rw [if_pos h1, if_pos h1]
    exact After.of_same h rfl
  · rw [if_neg h1, if_neg h1]
    by_cases h2 : is.getD 1 0 > 0 ∧ is.getD 0 0 > is.getD 1 0
    · rw [if_pos h2, if_pos h2]
      exact After.of_same h rfl
    · rw [if_neg h2, if_neg h2]
      cases hp : parse L tmpl with
      | error e =>
        simp only [parseO, hp, Except.toOption]
        exact After.of_same h rfl
      | ok es =>
        simp only [parseO, hp, Except.toOption]
        show After W ps s cs (M.bind (joinCheck (run L (m + 1)) ctx es) _ s) _
        unfold M.bind
        rcases joinCheck_list L m hb es s with ⟨h3, h4⟩ | ⟨h3, e, h4, h5⟩
        · rw [h4, h3]
          dsimp only
          by_cases hne : (bareFuncs es).isEmpty = true
          · rw [if_pos (show (bareFuncs es).length = 0 by simpa using hne),
              if_pos (show (!true || (bareFuncs es).isEmpty) = true by simp [hne])]
            exact After.of_same h rfl
          · have hne' : (bareFuncs es).isEmpty = false := by simpa using hne
            rw [if_neg (show ¬ (bareFuncs es).length = 0 by simpa using hne),
              if_neg (show ¬ (!true || (bareFuncs es).isEmpty) = true by simp [hne'])]
            have := joinLoop_sim (W := W) (rec := run L (m + 1)) (ctx := ctx)
              (eval := clauseDoc (badFor W.s0) sc (callDoc L (parseO L) (badFor W.s0) sc depth))
              (es := es) sep (is.getD 0 0) (is.getD 1 0) sc.items
              (fun i ps s cs hr => by rw [joinInst_eq]; exact hev es hp i ps s cs hr)
              (fun i s s' d hi => clauseDoc_beyond L _ _ sc depth es i hi h3 hne' s s' d)
              fuel (sc.items + 1) (if is.getD 0 0 ≤ 0 then 1 else is.getD 0 0)
              (by omega) (by split <;> omega) hm h (inRange_nil ps)
            exact this
        · rw [h5, h3]
          dsimp only
          rw [if_pos (by simp)]
          exact After.of_same h h4

theorem call_sim {W : World} {L : GoLib} {ctx : Ctx} {fr : Frame} {sc : Scope} {Nch : Nat}
    (env : Env W L ctx fr sc Nch) (depth m : Nat) (hm : Nch + sc.items + 1 ≤ m)
    (name : Str) (args : List CallArg) (hsh : ShortArgs depth args)
    (hev : ∀ d, depth = d + 1 → ∃ m', m = m' + 1 ∧ ∀ es, Short d es → ∀ ps s cs, Rel W ps s cs →
      After W ps s cs (buildClause L (run L m') m' ctx es s)
        (clauseDoc (badFor W.s0) sc (callDoc L (parseO L) (badFor W.s0) sc d) es cs))
    {ps : List Str} {s : St} {cs : Session} (h : Rel W ps s cs) :
    After W ps s cs (evalFunction L (run L m) m ctx name args s)
      (callDoc L (parseO L) (badFor W.s0) sc depth name args cs) := by
  unfold evalFunction callDoc
  rw [env.fns name]
  have hfrag : ∀ nm, After W ps s cs (evalCall L (run L m) m ctx (indexInfo nm .fragment) args s)
      ((match indexArg L args with
        | none => Step.fail .error
        | some i => (fragDoc sc i).contain) cs) := by
    intro nm
    rcases evalCall_index L (run L m) m ctx nm .fragment args with ⟨vs, h1, h2⟩ | ⟨h1, e, h2, h3⟩
    · rw [h1, h2]
      apply After.contain _ (by decide)
      show After W ps s cs (M.bind (mustFragment ctx) _ s) _
      rw [mustFragment_some env.frame]
      exact fragmentBuild_sim h _ _ fr sc env.len (env.child m (by omega)) _
    · rw [h1, h3]
      exact After.of_same h h2
  by_cases ha : name = lit "arg"
  · rw [if_pos ha, if_pos ha]
    dsimp only
    rcases evalCall_index L (run L m) m ctx (lit "arg") .arg args with ⟨vs, h1, h2⟩ | ⟨h1, e, h2, h3⟩
    · rw [h1, h2]
      apply After.contain _ (by decide)
      show After W ps s cs (M.bind (mustFragment ctx) _ s) _
      rw [mustFragment_some env.frame]
      exact argBuild_sim h fr sc env.args _
    · rw [h1, h3]
      exact After.of_same h h2
  · rw [if_neg ha, if_neg ha]
    by_cases hf : name = lit "f"
    · rw [if_pos hf, if_pos (.inl hf)]
      exact hfrag _
    · rw [if_neg hf]
      by_cases hg : name = lit "fragment"
      · rw [if_pos hg, if_pos (.inr hg)]
        exact hfrag _
      · rw [if_neg hg, if_neg (show ¬(name = lit "f" ∨ name = lit "fragment") from fun h => h.elim hf hg)]
        by_cases hj : name = lit "join"
        · rw [if_pos hj, if_pos hj]
          dsimp only
          rcases evalCall_join L (run L m) m ctx args with
            ⟨t, u, is, vs, h1, h2, h3, h4, h5⟩ | ⟨h1, p, h2, h3⟩ | ⟨h1, e, h2, h3⟩
          · rw [h1, h5]
            dsimp only
            have hst : t.length < depth := by
              rcases hsh with hsh | ⟨i, rfl⟩
              · cases args with
                | nil => cases h1
                | cons a l =>
                  cases l with
                  | nil => cases h1
                  | cons b as =>
                    rw [joinArgs] at h1
                    obtain ⟨a', ha', h1⟩ := Res.bind_ok h1
                    obtain ⟨b', _, h1⟩ := Res.bind_ok h1
                    obtain ⟨c', _, h1⟩ := Res.bind_ok h1
                    cases h1
                    cases a <;> simp only [strArg] at ha' <;> cases ha'
                    · exact absurd List.mem_cons_self (hsh.2 _)
                    · exact hsh.1 _ (by simp)
              · cases h1
            obtain ⟨d, rfl⟩ : ∃ d, depth = d + 1 := ⟨depth - 1, by omega⟩
            obtain ⟨m', rfl, hev'⟩ := hev d rfl
            apply After.contain _ (by decide)
            show After W ps s cs (funcJoin L (run L (m' + 1)) (m' + 1) ctx
              (vs.getD 0 .context).toStr (vs.getD 1 .context).toStr
              ((vs.drop 2).map (·.toInt L)) s) _
            rw [h2, h3, h4]
            apply funcJoin_sim env.fns m' (m' + 1) d (by omega) t u is _ h
            intro es hes i ps s cs hr
            have hsh' := parse_short hes
            exact hev' _ (short_atIndex (hsh'.mono (by omega)) i) ps s cs hr
          · rw [h1, h3]
            exact After.of_same h h2
          · rw [h1, h3]
            exact After.of_same h h2
        · rw [if_neg hj, if_neg hj]
          exact After.of_same h rfl


theorem clause_sim_of {W : World} {L : GoLib} {ctx : Ctx} {fr : Frame} {sc : Scope} {Nch : Nat}
    (env : Env W L ctx fr sc Nch) (depth m : Nat) (hm : Nch + sc.items + 1 ≤ m)
    (hev : ∀ d, depth = d + 1 → ∃ m', m = m' + 1 ∧ ∀ es, Short d es → ∀ ps s cs, Rel W ps s cs →
      After W ps s cs (buildClause L (run L m') m' ctx es s)
        (clauseDoc (badFor W.s0) sc (callDoc L (parseO L) (badFor W.s0) sc d) es cs))
    (es : List Expr) (hsh : Short depth es) (ps : List Str) (s : St) (cs : Session)
    (h : Rel W ps s cs) :
    After W ps s cs (buildClause L (run L m) m ctx es s)
      (clauseDoc (badFor W.s0) sc (callDoc L (parseO L) (badFor W.s0) sc depth) es cs) := by
  induction es generalizing ps s cs with
  | nil => exact After.of_same h ⟨rfl, inRange_nil ps⟩
  | cons e es ih =>
    have hsh' : Short depth es := fun name as hx => hsh name as (by simp [hx])
    rw [buildClause, clauseDoc]
    apply After.bind
    · cases e with
      | plain t => exact After.of_same h ⟨(renderDoc_ofStr ps t).symm, inRange_ofStr ps t⟩
      | bindVar t i =>
        show After W ps s cs (M.bind (mustFragment ctx) _ s) _
        rw [mustFragment_some env.frame]
        show After W ps s cs ((match position i fr.args.length with
          | none => M.err (.bindVarIndex i)
          | some _ => argBuild fr i) s) _
        simp only [exprDoc]
        have ha := argBuild_sim h fr sc env.args i
        rw [env.args]
        rcases position_item i fr.args with ⟨h1, h2⟩ | ⟨k, v, h1, h2, h3, h4⟩
        · rw [h1, h2]
          exact After.of_same h rfl
        · rw [h1, h3]
          exact ha
      | call name args => exact call_sim env depth m hm name args (hsh name args (by simp)) hev h
      | func name => exact After.of_same h rfl
    · intro ps1 s1 cs1 d hp1 hr1 hd1
      apply After.bind (ih hsh' ps1 s1 cs1 hr1)
      intro ps2 s2 cs2 d2 hp2 hr2 hd2
      refine After.of_same hr2 ⟨?_, ?_⟩
      · rw [renderDoc_append, renderDoc_mono hd1 hp2]
      · exact inRange_append.2 ⟨hd1.mono hp2, hd2⟩

theorem clause_sim {W : World} {L : GoLib} {ctx : Ctx} {fr : Frame} {sc : Scope} {Nch : Nat}
    (env : Env W L ctx fr sc Nch) (depth m : Nat) (hm : Nch + depth + sc.items + 1 ≤ m)
    (es : List Expr) (hsh : Short depth es) (ps : List Str) (s : St) (cs : Session)
    (h : Rel W ps s cs) :
    After W ps s cs (buildClause L (run L m) m ctx es s)
      (clauseDoc (badFor W.s0) sc (callDoc L (parseO L) (badFor W.s0) sc depth) es cs) := by
  induction depth generalizing m es ps s cs with
  | zero => exact clause_sim_of env 0 m (by omega) (by intro d hd; cases hd) es hsh ps s cs h
  | succ depth ih =>
    refine clause_sim_of env (depth + 1) m (by omega) ?_ es hsh ps s cs h
    intro d hd
    cases hd
    exact ⟨m - 1, by omega, fun es hs ps s cs hr => ih (m - 1) (by omega) es hs ps s cs hr⟩

/-! ## Fragments -/

theorem firstUnused_none_iff (used : List Nat) (n : Nat) :
    firstUnused used n = none ↔ ∀ k, k < n → k ∈ used := by
  induction n with
  | zero => simp [firstUnused]
  | succ n ih =>
    unfold firstUnused
    cases h : firstUnused used n with
    | some i =>
      simp only [reduceCtorEq, false_iff]
      intro hk
      rw [ih.2 (fun k hl => hk k (by omega))] at h
      cases h
    | none =>
      have h' := ih.1 h
      dsimp only
      constructor
      · intro hn k hk
        by_cases hkn : k = n
        · subst hkn
          by_cases hm : k ∈ used
          · exact hm
          · rw [if_neg hm] at hn; cases hn
        · exact h' k (by omega)
      · intro hk
        rw [if_pos (hk n (by omega))]

theorem checkUsage_sim {W : World} {ps : List Str} {s : St} {cs : Session} (h : Rel W ps s cs)
    (fr : Frame) (nF : Nat) (hl : nF = fr.frags.length) :
    (allUsed cs.used fr.args.length nF = true ∧ checkUsage fr s = none) ∨
    (allUsed cs.used fr.args.length nF = false ∧ ∃ e, e.isInvalidIndex = false ∧
      checkUsage fr s = some e) := by
  subst hl
  have hA := firstUnused_none_iff s.usedA fr.args.length
  have hF := firstUnused_none_iff s.usedF fr.frags.length
  have hall : allUsed cs.used fr.args.length fr.frags.length = true ↔
      (∀ k, k < fr.args.length → k ∈ s.usedA) ∧ (∀ k, k < fr.frags.length → k ∈ s.usedF) := by
    unfold allUsed
    simp only [Bool.and_eq_true, List.all_eq_true, List.mem_range, List.contains_iff_mem]
    constructor
    · rintro ⟨h1, h2⟩
      exact ⟨fun k hk => (h.usedA k).2 (h1 k hk), fun k hk => (h.usedF k).2 (h2 k hk)⟩
    · rintro ⟨h1, h2⟩
      exact ⟨fun k hk => (h.usedA k).1 (h1 k hk), fun k hk => (h.usedF k).1 (h2 k hk)⟩
  unfold checkUsage
  cases h1 : firstUnused s.usedA fr.args.length with
  | some i =>
    right
    refine ⟨?_, _, rfl, rfl⟩
    rw [Bool.eq_false_iff]
    intro ha
    rw [hA.2 (hall.1 ha).1] at h1; cases h1
  | none =>
    cases h2 : firstUnused s.usedF fr.frags.length with
    | some i =>
      right
      refine ⟨?_, _, rfl, rfl⟩
      rw [Bool.eq_false_iff]
      intro ha
      rw [hF.2 (hall.1 ha).2] at h2; cases h2
    | none => exact .inl ⟨hall.2 ⟨hA.1 h1, hF.1 h2⟩, rfl⟩

theorem decorate_sim {ps : List Str} (hm : Marks ps) {d : Doc} (hd : InRange ps d) (pre suf : Str) :
    decorate pre suf (renderDoc ps d) = renderDoc ps (decorateDoc pre suf d) := by
  have hr : InRange ps (trimDoc d) := by intro k hk; rw [binds_trimDoc] at hk; exact hd k hk
  have h1 := renderDoc_trim hm hd
  have h2 := renderDoc_eq_nil hm hr
  unfold decorate decorateDoc
  rw [← h1]
  by_cases h : trimDoc d = []
  · rw [if_pos h, if_pos (h2.2 h)]; rfl
  · rw [if_neg h, if_neg (fun hx => h (h2.1 hx))]
    have ha : (if pre ≠ [] then pre ++ lit " " else []) =
        renderDoc ps (if pre = [] then [] else Doc.ofStr pre ++ Doc.ofStr (lit " ")) := by
      by_cases hp : pre = []
      · simp [hp, renderDoc]
      · simp [hp, renderDoc_append, renderDoc_ofStr]
    have hb : (if suf ≠ [] then lit " " ++ suf else []) =
        renderDoc ps (if suf = [] then [] else Doc.ofStr (lit " ") ++ Doc.ofStr suf) := by
      by_cases hp : suf = []
      · simp [hp, renderDoc]
      · simp [hp, renderDoc_append, renderDoc_ofStr]
    rw [ha, hb, renderDoc_append, renderDoc_append]

theorem fn_withFragment (ctx : Ctx) (f : Fragment) (name : Str) :
    (ctx.withFragment f).fn name = ctx.fn name := rfl

theorem fragment_sim {W : World} {L : GoLib} {ctx : Ctx} (hb : BuiltinCtx ctx)
    (raw : Str) (args : List Val) (frags : List Builder) (pre suf : Str) (sems : List Sem)
    (Nch : Nat) (hl : sems.length = frags.length)
    (hc : ∀ n, Nch ≤ n → ∀ ctx, BuiltinCtx ctx → ∀ (k : Nat) b f, frags[k]? = some b →
      sems[k]? = some f → BuildSim W (run L n ctx (.build b)) f)
    (m : Nat) (hm : Nch + raw.length + max args.length frags.length + 1 ≤ m) :
    BuildSim W (buildFragment L (run L m) m ctx (.mk raw args frags pre suf))
      (fragmentSem L (parseO L) (badFor W.s0) raw args sems pre suf) := by
  intro ps s log hs hk
  let fr : Frame := { args, frags }
  let sc : Scope := { args, frags := sems }
  have hb' : BuiltinCtx (ctx.withFragment (.mk raw args frags pre suf)) := hb
  have env : Env W L (ctx.withFragment (.mk raw args frags pre suf)) fr sc Nch :=
    ⟨rfl, hb', rfl, hl, fun n hn k b f h1 h2 => hc n hn _ hb' k b f h1 h2⟩
  have hrel : Rel W ps { s with usedA := [], usedF := [] } { log, used := [] } :=
    ⟨hk, hs, by simp, by simp⟩
  unfold buildFragment withFreshUsage buildBody fragmentSem
  simp only [Fragment.raw, Fragment.args, Fragment.frags, Fragment.pre, Fragment.suf]
  cases hp : parse L raw with
  | error e =>
    have hpo : parseO L raw = none := by simp [parseO, hp, Except.toOption]
    rw [hpo]
    exact ⟨ps, hs, ⟨hk, trivial, trivial⟩, List.prefix_rfl, List.prefix_rfl, rfl⟩
  | ok es =>
    have hpo : parseO L raw = some es := by simp [parseO, hp, Except.toOption]
    rw [hpo]
    have hitems : sc.items = max args.length frags.length := by
      simp [Scope.items, sc, hl]
    have hcl := After.wrap raw (clause_sim env raw.length m (by omega) es (parse_short hp) ps _ _ hrel)
    obtain ⟨ps', hcl⟩ := hcl
    unfold M.bind
    generalize hr : M.wrapErr raw (buildClause L (run L m) m (ctx.withFragment
      (.mk raw args frags pre suf)) es) { s with usedA := [], usedF := [] } = r at hcl
    generalize hcc : clauseDoc (badFor W.s0) sc (callDoc L (parseO L) (badFor W.s0) sc raw.length) es
      { log, used := [] } = c at hcl
    have hcc' : clauseDoc (badFor W.s0) { args, frags := sems }
      (callDoc L (parseO L) (badFor W.s0) { args, frags := sems } raw.length) es
      { log, used := [] } = c := hcc
    obtain ⟨o, s1⟩ := r
    obtain ⟨d, cs1⟩ := c
    dsimp only
    rw [hcc', hr]
    have ho := hcl.out
    cases d <;> cases o <;> simp only [Matches] at ho
    · rename_i d t
      obtain ⟨rfl, hd⟩ := ho
      dsimp only
      rcases checkUsage_sim hcl.rel fr sems.length hl with ⟨h1, h2⟩ | ⟨h1, e, h2, h3⟩
      · have h1' : allUsed cs1.used args.length sems.length = true := h1
        have h2' : checkUsage { args, frags } s1 = none := h2
        rw [h1', h2']
        refine ⟨ps', hcl.rel.store, ⟨hcl.rel.keep, trivial, trivial⟩, hcl.pre, hcl.logPre, ?_, ?_⟩
        · exact decorate_sim (commitAll_marks hcl.rel.store) hd pre suf
        · intro k hk; rw [binds_decorateDoc] at hk; exact hd k hk
      · have h1' : allUsed cs1.used args.length sems.length = false := h1
        have h3' : checkUsage { args, frags } s1 = some e := h3
        rw [h1', h3']
        exact ⟨ps', hcl.rel.store, ⟨hcl.rel.keep, trivial, trivial⟩, hcl.pre, hcl.logPre, h2⟩
    · exact ⟨ps', hcl.rel.store, ⟨hcl.rel.keep, trivial, trivial⟩, hcl.pre, hcl.logPre, ho⟩
    · exact ⟨ps', hcl.rel.store, ⟨hcl.rel.keep, trivial, trivial⟩, hcl.pre, hcl.logPre, ho⟩
    · exact ⟨ps', hcl.rel.store, ⟨hcl.rel.keep, trivial, trivial⟩, hcl.pre, hcl.logPre, ho⟩

/-! ## Trees -/

theorem buildSim_text (W : World) (t : Str) :
    BuildSim W (M.pure t) (fun log => (.ok (Doc.ofStr t), log)) := by
  intro ps s log h hk
  exact ⟨ps, h, ⟨hk, rfl, rfl⟩, List.prefix_rfl, List.prefix_rfl, (renderDoc_ofStr ps t).symm, inRange_ofStr ps t⟩

theorem buildSim_panic (W : World) {p : Panic} (hp : p.toErr.isInvalidIndex = false) :
    BuildSim W (M.panic p) (fun log => (.panic, log)) := by
  intro ps s log h hk
  exact ⟨ps, h, ⟨hk, rfl, rfl⟩, List.prefix_rfl, List.prefix_rfl, hp⟩

theorem semL_length (L : GoLib) (parse : Str → Option (List Expr)) (bad : Val → Bool)
    (bs : List Builder) : (semL L parse bad bs).length = bs.length := by
  induction bs with
  | nil => rfl
  | cons b bs ih => simp [semL, ih]

mutual
/-- Enough fuel for a tree. -/
def need : Builder → Nat
  | .frag f => needF f
  | .column _ f => needF f
  | _ => 1
def needF : Fragment → Nat
  | .mk raw args frags _ _ => needL frags + raw.length + max args.length frags.length + 2
def needL : List Builder → Nat
  | [] => 0
  | b :: bs => max (need b) (needL bs)
end

mutual
theorem build_sim (W : World) (L : GoLib) : ∀ (b : Builder), IsTree b → ∀ n, need b ≤ n →
    ∀ ctx, BuiltinCtx ctx →
    BuildSim W (run L n ctx (.build b)) (sem L (parseO L) (badFor W.s0) b)
  | .frag f, ht, n, hn, ctx, hb => by
    rw [IsTree] at ht
    rw [need] at hn
    have h := build_simF W L f ht n hn ctx hb
    rw [sem]
    exact h
  | .column t f, ht, n, hn, ctx, hb => by
    rw [IsTree] at ht
    rw [need] at hn
    have h := build_simF W L f ht n hn ctx hb
    rw [sem]
    cases n with
    | zero => cases f; simp [needF] at hn
    | succ n => exact h
  | .nil, _, n, hn, ctx, _ => by
    obtain ⟨n, rfl⟩ : ∃ k, n = k + 1 := ⟨n - 1, by simp [need] at hn; omega⟩
    exact buildSim_panic W (p := .nilDereference) rfl
  | .nilColumn, _, n, hn, ctx, _ => by
    obtain ⟨n, rfl⟩ : ∃ k, n = k + 1 := ⟨n - 1, by simp [need] at hn; omega⟩
    exact buildSim_panic W (p := .nilDereference) rfl
  | .nilFrag, _, n, hn, ctx, _ => by
    obtain ⟨n, rfl⟩ : ∃ k, n = k + 1 := ⟨n - 1, by simp [need] at hn; omega⟩
    exact buildSim_text W []
  | .columnNilFrag _, _, n, hn, ctx, _ => by
    obtain ⟨n, rfl⟩ : ∃ k, n = k + 1 := ⟨n - 1, by simp [need] at hn; omega⟩
    exact buildSim_text W []
  | .nilQb, _, n, hn, ctx, _ => by
    obtain ⟨n, rfl⟩ : ∃ k, n = k + 1 := ⟨n - 1, by simp [need] at hn; omega⟩
    exact buildSim_text W []
  | .table t, _, n, hn, ctx, _ => by
    obtain ⟨n, rfl⟩ : ∃ k, n = k + 1 := ⟨n - 1, by simp [need] at hn; omega⟩
    exact buildSim_text W t
  | .aliased a b, _, n, hn, ctx, _ => by
    obtain ⟨n, rfl⟩ : ∃ k, n = k + 1 := ⟨n - 1, by simp [need] at hn; omega⟩
    have h : TableAliased.appliedName ⟨a, b⟩ = if b = [] then a else b := by
      simp only [TableAliased.appliedName]
      by_cases hb : b = [] <;> simp [hb]
    rw [sem, ← h]
    exact buildSim_text W _
  | .qb _, ht, _, _, _, _ => by simp [IsTree] at ht
  | .custom _, ht, _, _, _, _ => by simp [IsTree] at ht
theorem build_simF (W : World) (L : GoLib) : ∀ (f : Fragment), IsTreeF f → ∀ n, needF f ≤ n →
    ∀ ctx, BuiltinCtx ctx →
    BuildSim W (run L n ctx (.build (.frag f))) (semF L (parseO L) (badFor W.s0) f)
  | .mk raw args frags pre suf, ht, n, hn, ctx, hb => by
    rw [IsTreeF] at ht
    rw [needF] at hn
    obtain ⟨n, rfl⟩ : ∃ k, n = k + 1 := ⟨n - 1, by omega⟩
    rw [semF]
    exact fragment_sim hb raw args frags pre suf _ (needL frags) (semL_length L _ _ frags)
      (fun n hn ctx hb k b f h1 h2 => build_simL W L frags ht n hn ctx hb k b f h1 h2) n (by omega)
theorem build_simL (W : World) (L : GoLib) : ∀ (bs : List Builder), IsTreeL bs → ∀ n, needL bs ≤ n →
    ∀ ctx, BuiltinCtx ctx → ∀ (k : Nat) b f, bs[k]? = some b →
      (semL L (parseO L) (badFor W.s0) bs)[k]? = some f →
    BuildSim W (run L n ctx (.build b)) f
  | [], _, _, _, _, _, k, b, f, h1, _ => by simp at h1
  | x :: bs, ht, n, hn, ctx, hb, k, b, f, h1, h2 => by
    rw [IsTreeL] at ht
    rw [needL] at hn
    rw [semL] at h2
    cases k with
    | zero =>
      simp at h1 h2
      subst h1 h2
      exact build_sim W L x ht.1 n (by omega) ctx hb
    | succ k =>
      simp at h1 h2
      exact build_simL W L bs ht.2 n (by omega) ctx hb k b f h1 h2
end

/-- The build of a tree changes nothing but the argument store. -/
theorem build_sim_at (s0 : Store) (L : GoLib) (b : Builder) (ht : IsTree b) (n : Nat) (hn : need b ≤ n)
    (ctx : Ctx) (hb : BuiltinCtx ctx) (ps : List Str) (s : St) (log : List Val)
    (hs : commitAll s0 log = some (ps, s.store)) :
    ∃ ps', commitAll s0 (sem L (parseO L) (badFor s0) b log).2 =
        some (ps', (run L n ctx (.build b) s).2.store) ∧
      (run L n ctx (.build b) s).2 = { s with store := (run L n ctx (.build b) s).2.store } ∧
      ps <+: ps' ∧ log <+: (sem L (parseO L) (badFor s0) b log).2 ∧
      Matches ps' (sem L (parseO L) (badFor s0) b log).1 (run L n ctx (.build b) s).1 := by
  obtain ⟨ps', h1, ⟨⟨h2, h3⟩, h4, h5⟩, h6, h7, h8⟩ :=
    build_sim ⟨s0, fun h g => h = s.heap ∧ g = s.log⟩ L b ht n hn ctx hb ps s log hs ⟨rfl, rfl⟩
  refine ⟨ps', h1, ?_, h6, h7, h8⟩
  revert h2 h3 h4 h5
  generalize (run L n ctx (.build b) s).2 = s'
  cases s; cases s'
  rintro rfl rfl rfl rfl
  rfl

end Sqlf
