import Verif.Props.Context
import Verif.Proofs.Mention
import Verif.Spec.Query
import Verif.KernelRfl
/-!
# C24: unused fragments are reported, and reports are right
-/

namespace Sqlf.Props

open Spec

private def BuiltAt (L : GoLib) (ctx : Ctx) (fr : Frame) (base : List Val) (uf : List Nat) (st : Store) : Prop :=
  base <+: st.args ∧ ∀ k ∈ uf, ∃ b s1 o s2, fr.frags[k]? = some b ∧ BuildsTo L ctx b s1 (o, s2) ∧
    ((∃ t, o = .ok t) ∨ IndexFailure o) ∧ base <+: s1.store.args ∧ s2.store.args <+: st.args

private theorem builtAt_rel (L : GoLib) (ctx : Ctx) (fr : Frame) (base : List Val) :
    UseRel L ctx fr fun _ uf st => BuiltAt L ctx fr base uf st where
  commit := by
    rintro a f st st' ⟨h1, h2⟩ ⟨vs, ps, hc⟩
    have hp := (commitAll_prefix hc).1
    refine ⟨h1.trans hp, fun k hk => ?_⟩
    obtain ⟨b, s1, o, s2, h3, h4, h5, h6, h7⟩ := h2 k hk
    exact ⟨b, s1, o, s2, h3, h4, h5, h6, h7.trans hp⟩
  arg := by
    rintro a f st k v p st' ⟨h1, h2⟩ hk hc
    have hp : st.args <+: st'.args := by
      obtain ⟨vs, ps, hc⟩ := Commits.one hc
      exact (commitAll_prefix hc).1
    refine ⟨h1.trans hp, fun k hk => ?_⟩
    obtain ⟨b, s1, o, s2, h3, h4, h5, h6, h7⟩ := h2 k hk
    exact ⟨b, s1, o, s2, h3, h4, h5, h6, h7.trans hp⟩
  frag := by
    rintro n k b s hb ⟨h1, h2⟩
    have hp : s.store.args <+: (run L n ctx (.build b) { s with usedF := k :: s.usedF }).2.store.args := by
      obtain ⟨vs, ps, hc⟩ := run_commits L n ctx (.build b) { s with usedF := k :: s.usedF }
      exact (commitAll_prefix hc).1
    by_cases hst : Sticky (run L n ctx (.build b) { s with usedF := k :: s.usedF }).1
    · exact .inr hst
    · refine .inl ⟨h1.trans hp, fun j hj => ?_⟩
      rcases List.mem_cons.1 hj with rfl | hj
      · refine ⟨b, { s with usedF := j :: s.usedF }, _, _, hb, buildsTo_of_run rfl ?_, ?_, h1, List.prefix_refl _⟩
        · intro ho; apply hst; rw [ho]; trivial
        · revert hst
          rcases (run L n ctx (.build b) { s with usedF := j :: s.usedF }).1 with t | e | p | _
          · exact fun _ => .inl ⟨t, rfl⟩
          · intro h; right; simpa [Sticky, IndexFailure] using h
          · intro h
            right
            cases p with
            | value m i => simpa [Sticky, IndexFailure, Panic.toErr, Err.isInvalidIndex] using h
            | _ => simp [Sticky, Panic.toErr, Err.isInvalidIndex] at h
          · intro h; simp [Sticky] at h
      · obtain ⟨b, s1, o, s2, h3, h4, h5, h6, h7⟩ := h2 j hj
        exact ⟨b, s1, o, s2, h3, h4, h5, h6, h7.trans hp⟩

/-- **C24** If a fragment builds, each fragment given to it was built in the course of this: with the arguments that
were there before, and leaving no more than there are at the end.  So a fragment with an unused fragment never
builds. (An item of a `#join` may have failed with ErrInvalidIndex, see C31.) -/
theorem C24_every_fragment_built (L : GoLib) (ctx : Ctx) (f : Fragment) (s s' : St) (t : Str)
    (h : BuildsTo L ctx (.frag f) s (.ok t, s')) (b : Builder) (hb : b ∈ f.frags) :
    ∃ s1 o s2, BuildsTo L (ctx.withFragment f) b s1 (o, s2) ∧ ((∃ t, o = .ok t) ∨ IndexFailure o) ∧
      s.store.args <+: s1.store.args ∧ s2.store.args <+: s'.store.args := by
  obtain ⟨n, h⟩ := buildsTo_frag h
  obtain ⟨ua, uf, ⟨-, h1⟩, -, h3⟩ := buildFragment_use (builtAt_rel L _ ⟨f.args, f.frags⟩ s.store.args) n n s s' t
    ⟨List.prefix_refl _, by simp⟩ h
  obtain ⟨k, hk, rfl⟩ := List.mem_iff_getElem.1 hb
  obtain ⟨b, s1, o, s2, h4, h5, h6, h7, h8⟩ := h1 k (h3 k hk)
  simp only [List.getElem?_eq_getElem hk, Option.some.injEq] at h4
  subst h4
  exact ⟨s1, o, s2, h5, h6, h7, h8⟩

example (L : GoLib) : BuildsTo L sampleCtx (.frag sampleFrag) (St.init question [])
      (.ok (lit "aa ?, ? c = ?"),
        { St.init question [] with
          store := { (Store.new question) with args := [.int 64 1, .int 64 2, .int 64 9] } }) ∧
    .custom (.commit (.int 64 9) fun p => .ret (lit "c = " ++ p)) ∈ sampleFrag.frags :=
  ⟨buildsTo_of_run (n := 100) (by kernel_rfl) (by simp), .head _⟩

/-- **C24** So a fragment one of whose fragments builds in no state at all never builds, whether its template refers
to that fragment or not. -/
theorem C24_unbuildable_fragment (L : GoLib) (ctx : Ctx) (f : Fragment) (b : Builder) (hb : b ∈ f.frags)
    (hno : ∀ s1 o s2, BuildsTo L (ctx.withFragment f) b s1 (o, s2) → HardFailure o) (s s' : St) (t : Str) :
    ¬ BuildsTo L ctx (.frag f) s (.ok t, s') := by
  intro h
  obtain ⟨s1, o, s2, h1, h2, -⟩ := C24_every_fragment_built L ctx f s s' t h b hb
  have h3 := hno _ _ _ h1
  rcases h2 with ⟨t, rfl⟩ | h2
  · exact h3
  · cases o with
    | ok t => exact h3
    | err e => simp [HardFailure, IndexFailure] at h2 h3; rw [h2] at h3; cases h3
    | panic p => cases p <;> simp [HardFailure, IndexFailure] at h2 h3; rw [h2] at h3; cases h3
    | oof => exact h3

/-- A fragment whose template is not valid builds in no state. -/
example (L : GoLib) (f : Fragment) (s1 : St) (o : Out Str) (s2 : St)
    (h : BuildsTo L (sampleCtx.withFragment f) (.frag (.Fa (lit "#f(") [])) s1 (o, s2)) : HardFailure o := by
  have h' := buildsTo_of_run (L := L) (ctx := sampleCtx.withFragment f) (b := .frag (.Fa (lit "#f(") [])) (n := 20)
    (s := s1) rfl (by
      have : (run L 20 (sampleCtx.withFragment f) (.build (.frag (.Fa (lit "#f(") []))) s1).1 ≠ .oof := by
        rw [show (run L 20 (sampleCtx.withFragment f) (.build (.frag (.Fa (lit "#f(") []))) s1).1 =
          .err (.wrap (lit "#f(") (.parse (.wantArgs .eof))) by kernel_rfl]
        simp
      exact this)
  have := congrArg Prod.fst (buildsTo_unique h h')
  rw [show (run L 20 (sampleCtx.withFragment f) (.build (.frag (.Fa (lit "#f(") []))) s1).1 =
    .err (.wrap (lit "#f(") (.parse (.wantArgs .eof))) by kernel_rfl] at this
  dsimp only at this
  rw [this]; rfl

/-- The template refers to argument `k` (from 1): by `?` or `$k`, or by a call of the built-in `#arg`. -/
def RefersToArg (L : GoLib) (ctx : Ctx) (template : List Expr) (k : Int) : Prop :=
  (∃ style, .bindVar style k ∈ template) ∨
  ∃ as, .call (lit "arg") as ∈ template ∧ BuiltIn L ctx (lit "arg") ∧ indexArg L as = some k

/-- The template refers to fragment `k` (from 1) by a call of the built-in `#f` or `#fragment`. -/
def RefersToFragment (L : GoLib) (ctx : Ctx) (template : List Expr) (k : Int) : Prop :=
  ∃ name as, (name = lit "f" ∨ name = lit "fragment") ∧ .call name as ∈ template ∧ BuiltIn L ctx name ∧
    indexArg L as = some k

private theorem notRef_arg {L : GoLib} {ctx : Ctx} {f : Fragment} {es : List Expr} {n : Nat} {s s1 : St} {t : Str}
    (h : buildClause L (run L n) n (ctx.withFragment f) es s = (.ok t, s1)) {k : Nat}
    (hr : RefersToArg L ctx es (k + 1)) : k ∈ s1.usedA := by
  rcases hr with ⟨sty, hm⟩ | ⟨as, hm, hb, hi⟩
  · obtain ⟨u, s2, s3, h1, h2, -⟩ := clause_marks h hm
    have := (bindVar_used (ctx := ctx.withFragment f) rfl h1).2.1
    apply h2; rw [this]; simp
  · obtain ⟨u, s2, s3, h1, h2, -⟩ := clause_marks h hm
    obtain ⟨i, h3, h4, h5, -⟩ := index_used (ctx := ctx.withFragment f) rfl (by decide) hb h1
    rw [hi] at h3
    simp only [Option.some.injEq] at h3
    subst h3
    apply h2; rw [h5]; simp

private theorem notRef_frag {L : GoLib} {ctx : Ctx} {f : Fragment} {es : List Expr} {n : Nat} {s s1 : St} {t : Str}
    (h : buildClause L (run L n) n (ctx.withFragment f) es s = (.ok t, s1)) {k : Nat}
    (hr : RefersToFragment L ctx es (k + 1)) : k ∈ s1.usedF := by
  obtain ⟨name, as, hn, hm, hb, hi⟩ := hr
  obtain ⟨u, s2, s3, h1, -, h2⟩ := clause_marks h hm
  obtain ⟨i, h3, h4, -, h5⟩ := index_used (ctx := ctx.withFragment f) rfl
    (by rcases hn with rfl | rfl <;> decide) hb h1
  rw [hi] at h3
  simp only [Option.some.injEq] at h3
  subst h3
  have hne : name ≠ lit "arg" := by rcases hn with rfl | rfl <;> decide
  apply h2; rw [h5, if_neg hne]; simp

/-- **C24** Only unused arguments and fragments are reported: a fragment whose build ends with "args #k unused" has a
k-th argument, and its template does not refer to it, and the same for "properties #k unused" and its fragments. The
error names at least one of them. -/
theorem C24_reported_unused (L : GoLib) (ctx : Ctx) (f : Fragment) (s s' : St) (es : List Expr) (w : Str)
    (i j : Option Nat) (hp : parse L f.raw = .ok es)
    (h : BuildsTo L ctx (.frag f) s (.err (.wrap w (.unused i j)), s')) :
    (i ≠ none ∨ j ≠ none) ∧
    (∀ k, i = some k → (1 ≤ k ∧ k ≤ f.args.length) ∧ ¬ RefersToArg L ctx es k) ∧
    ∀ k, j = some k → (1 ≤ k ∧ k ≤ f.frags.length) ∧ ¬ RefersToFragment L ctx es k := by
  obtain ⟨n, h⟩ := buildsTo_frag h
  obtain ⟨es', body, s1, h1, h2, h3, h4, h5⟩ := buildFragment_unused h
  rw [hp] at h1
  simp only [Except.ok.injEq] at h1
  subst h1
  refine ⟨h5, fun k hk => ?_, fun k hk => ?_⟩
  · rw [h3] at hk
    obtain ⟨m, h6, rfl⟩ := Option.map_eq_some_iff.1 hk
    have := firstUnused_some h6
    exact ⟨by omega, fun hr => this.2.1 (notRef_arg h2 (by simpa using hr))⟩
  · rw [h4] at hk
    obtain ⟨m, h6, rfl⟩ := Option.map_eq_some_iff.1 hk
    have := firstUnused_some h6
    exact ⟨by omega, fun hr => this.2.1 (notRef_frag h2 (by simpa using hr))⟩

example (L : GoLib) :
    parse L (lit "a = $1") = .ok [.plain (lit "a = "), .bindVar dollar 1] ∧
    (run L 20 sampleCtx (.build (.frag (.Fa (lit "a = $1") [.int 64 1, .int 64 2]))) (St.init question [])).1 =
      .err (.wrap (lit "a = $1") (.unused (some 2) none)) ∧
    (run L 20 sampleCtx (.build (.frag (.Ff (lit "#f2") [.table (lit "t"), .table (lit "u")])))
      (St.init question [])).1 = .err (.wrap (lit "#f2") (.unused none (some 1))) ∧
    (run L 20 sampleCtx (.build (.frag (.mk (lit "$1") [.int 64 1, .int 64 2] [.table (lit "t")] [] [])))
      (St.init question [])).1 = .err (.wrap (lit "$1") (.unused (some 2) (some 1))) :=
  ⟨by kernel_rfl, by kernel_rfl, by kernel_rfl, by kernel_rfl⟩

/-- The only functions the template calls are the built-in `#arg`, `#f` and `#fragment`. -/
def OnlyIndexes (L : GoLib) (ctx : Ctx) (template : List Expr) : Prop :=
  ∀ name as, .call name as ∈ template →
    (name = lit "arg" ∨ name = lit "f" ∨ name = lit "fragment") ∧ BuiltIn L ctx name

private theorem marked_refers {L : GoLib} {ctx : Ctx} {f : Fragment} {n : Nat} {es : List Expr} {s s' : St} {t : Str}
    (ho : OnlyIndexes L ctx es) (h : buildClause L (run L n) n (ctx.withFragment f) es s = (.ok t, s')) :
    (∀ k ∈ s'.usedA, k ∈ s.usedA ∨ RefersToArg L ctx es (k + 1)) ∧
    ∀ k ∈ s'.usedF, k ∈ s.usedF ∨ RefersToFragment L ctx es (k + 1) := by
  induction es generalizing s t with
  | nil =>
    simp only [buildClause, M.pure, Prod.mk.injEq] at h
    rw [← h.2]
    exact ⟨fun k hk => .inl hk, fun k hk => .inl hk⟩
  | cons e es ih =>
    obtain ⟨u, v, s1, h1, h2, -⟩ := clause_split h
    obtain ⟨ha, hf⟩ := ih (fun name as hm => ho name as (.tail _ hm)) h2
    have wa : ∀ k, RefersToArg L ctx es k → RefersToArg L ctx (e :: es) k := by
      rintro k (⟨sty, h⟩ | ⟨as, h, h'⟩)
      · exact .inl ⟨sty, .tail _ h⟩
      · exact .inr ⟨as, .tail _ h, h'⟩
    have wf : ∀ k, RefersToFragment L ctx es k → RefersToFragment L ctx (e :: es) k := by
      rintro k ⟨name, as, hn, h, h'⟩
      exact ⟨name, as, hn, .tail _ h, h'⟩
    have key : (∀ k ∈ s1.usedA, k ∈ s.usedA ∨ RefersToArg L ctx (e :: es) (k + 1)) ∧
        ∀ k ∈ s1.usedF, k ∈ s.usedF ∨ RefersToFragment L ctx (e :: es) (k + 1) := by
      cases e with
      | plain t =>
        simp only [evalExpr, M.pure, Prod.mk.injEq] at h1
        rw [← h1.2]
        exact ⟨fun k hk => .inl hk, fun k hk => .inl hk⟩
      | func name => simp [evalExpr, M.err] at h1
      | bindVar sty i =>
        obtain ⟨hi, h3, h4⟩ := bindVar_used (ctx := ctx.withFragment f) rfl h1
        rw [h3, h4]
        refine ⟨fun k hk => ?_, fun k hk => .inl hk⟩
        rcases List.mem_cons.1 hk with rfl | hk
        · refine .inr (.inl ⟨sty, ?_⟩)
          rw [show (((i - 1).toNat : Int) + 1) = i by omega]
          exact .head _
        · exact .inl hk
      | call name as =>
        obtain ⟨hn, hb⟩ := ho name as (.head _)
        obtain ⟨i, hi, hi1, h3, h4⟩ := index_used (ctx := ctx.withFragment f) rfl
          (by rcases hn with rfl | rfl | rfl <;> decide) hb h1
        have hcast : (((i - 1).toNat : Int) + 1) = i := by omega
        rcases hn with rfl | hn
        · rw [if_pos rfl] at h3 h4
          rw [h3, h4]
          refine ⟨fun k hk => ?_, fun k hk => .inl hk⟩
          rcases List.mem_cons.1 hk with rfl | hk
          · exact .inr (.inr ⟨as, .head _, hb, by rw [hcast]; exact hi⟩)
          · exact .inl hk
        · have hne : name ≠ lit "arg" := by rcases hn with rfl | rfl <;> decide
          rw [if_neg hne] at h3 h4
          rw [h3, h4]
          refine ⟨fun k hk => .inl hk, fun k hk => ?_⟩
          rcases List.mem_cons.1 hk with rfl | hk
          · exact .inr ⟨name, as, hn, .head _, hb, by rw [hcast]; exact hi⟩
          · exact .inl hk
    refine ⟨fun k hk => ?_, fun k hk => ?_⟩
    · rcases ha k hk with h | h
      · exact key.1 k h
      · exact .inr (wa _ h)
    · rcases hf k hk with h | h
      · exact key.2 k h
      · exact .inr (wf _ h)

/-- **C24** All unused arguments and fragments are reported: if the template calls no function but `#arg`, `#f` and
`#fragment`, a fragment only builds if the template refers to each of its arguments and fragments. -/
theorem C24_builds_only_if_all_used (L : GoLib) (ctx : Ctx) (f : Fragment) (s s' : St) (es : List Expr) (t : Str)
    (hp : parse L f.raw = .ok es) (ho : OnlyIndexes L ctx es) (h : BuildsTo L ctx (.frag f) s (.ok t, s')) :
    (∀ k, k < f.args.length → RefersToArg L ctx es (k + 1)) ∧
    ∀ k, k < f.frags.length → RefersToFragment L ctx es (k + 1) := by
  obtain ⟨n, h⟩ := buildsTo_frag h
  obtain ⟨es', body, s1, h1, h2, -, hu, -⟩ := buildFragment_ok.1 h
  rw [hp] at h1
  simp only [Except.ok.injEq] at h1
  subst h1
  obtain ⟨ha, hf⟩ := marked_refers ho h2
  unfold checkUsage at hu
  cases h3 : firstUnused s1.usedA f.args.length with
  | some i => simp [h3] at hu
  | none =>
    cases h4 : firstUnused s1.usedF f.frags.length with
    | some i => simp [h3, h4] at hu
    | none =>
      refine ⟨fun k hk => ?_, fun k hk => ?_⟩
      · rcases ha k (firstUnused_none.1 h3 k hk) with h | h
        · simp [St.fresh] at h
        · exact h
      · rcases hf k (firstUnused_none.1 h4 k hk) with h | h
        · simp [St.fresh] at h
        · exact h

example (L : GoLib) :
    parse L (lit "#f1 = $1 OR #f(1) = #arg2") = .ok [.call (lit "f") [.num (.nat 1)], .plain (lit " = "),
      .bindVar dollar 1, .plain (lit " OR "), .call (lit "f") [.num (.nat 1)], .plain (lit " = "),
      .call (lit "arg") [.num (.nat 2)]] ∧
    OnlyIndexes L sampleCtx [.call (lit "f") [.num (.nat 1)], .plain (lit " = "),
      .bindVar dollar 1, .plain (lit " OR "), .call (lit "f") [.num (.nat 1)], .plain (lit " = "),
      .call (lit "arg") [.num (.nat 2)]] ∧
    (run L 30 sampleCtx (.build (.frag (.mk (lit "#f1 = $1 OR #f(1) = #arg2") [.int 64 1, .int 64 2]
      [.table (lit "t")] [] []))) (St.init question [])).1 = .ok (lit "t = ? OR t = ?") := by
  refine ⟨by kernel_rfl, ?_, by kernel_rfl⟩
  intro name as h
  simp only [List.mem_cons, Expr.call.injEq, reduceCtorEq, false_or, or_false, List.not_mem_nil] at h
  rcases h with ⟨rfl, rfl⟩ | ⟨rfl, rfl⟩ | ⟨rfl, rfl⟩
  · exact ⟨by simp, rootCtx, newContext_eq L, rfl⟩
  · exact ⟨by simp, rootCtx, newContext_eq L, rfl⟩
  · exact ⟨by simp, rootCtx, newContext_eq L, rfl⟩

/-- `i` is the first of the numbers 1 … `n` of which `used` does not hold; there is none if `i` is `none`. -/
def FirstNot (used : Int → Prop) (n : Nat) (i : Option Nat) : Prop :=
  match i with
  | some k => (1 ≤ k ∧ k ≤ n) ∧ ¬ used k ∧ ∀ m : Nat, 1 ≤ m → m < k → used m
  | none => ∀ m : Nat, 1 ≤ m → m ≤ n → used m

private theorem firstNot_of {used : List Nat} {n : Nat} {P : Int → Prop} (h1 : ∀ k ∈ used, P (k + 1))
    (h2 : ∀ k : Nat, P (k + 1) → k ∈ used) : FirstNot P n ((firstUnused used n).map (· + 1)) := by
  have up : ∀ m : Nat, 1 ≤ m → m - 1 ∈ used → P m := by
    intro m hm h
    have := h1 _ h
    rwa [show ((m - 1 : Nat) : Int) + 1 = m by omega] at this
  cases h : firstUnused used n with
  | none =>
    intro m hm hn
    exact up m hm (firstUnused_none.1 h _ (by omega))
  | some k =>
    obtain ⟨h3, h4, h5⟩ := firstUnused_some h
    show (1 ≤ k + 1 ∧ k + 1 ≤ n) ∧ ¬ P (k + 1 : Nat) ∧ ∀ m : Nat, 1 ≤ m → m < k + 1 → P m
    refine ⟨by omega, fun hp => h4 (h2 k (by simpa using hp)), fun m hm hk => ?_⟩
    exact up m hm (h5 _ (by omega))

/-- **C24** Exactly what is reported: if the template calls no function but `#arg`, `#f` and `#fragment`, the error names
the first argument and the first fragment the template does not refer to. -/
theorem C24_reports_first_unused (L : GoLib) (ctx : Ctx) (f : Fragment) (s s' : St) (es : List Expr) (w : Str)
    (i j : Option Nat) (hp : parse L f.raw = .ok es) (ho : OnlyIndexes L ctx es)
    (h : BuildsTo L ctx (.frag f) s (.err (.wrap w (.unused i j)), s')) :
    FirstNot (RefersToArg L ctx es) f.args.length i ∧ FirstNot (RefersToFragment L ctx es) f.frags.length j := by
  obtain ⟨n, h⟩ := buildsTo_frag h
  obtain ⟨es', body, s1, h1, h2, rfl, rfl, -⟩ := buildFragment_unused h
  rw [hp] at h1
  simp only [Except.ok.injEq] at h1
  subst h1
  obtain ⟨ha, hf⟩ := marked_refers ho h2
  exact ⟨firstNot_of (fun k hk => (ha k hk).resolve_left (by simp [St.fresh])) fun k hk => notRef_arg h2 hk,
    firstNot_of (fun k hk => (hf k hk).resolve_left (by simp [St.fresh])) fun k hk => notRef_frag h2 hk⟩

example (L : GoLib) : OnlyIndexes L sampleCtx [.bindVar dollar 1] ∧
    (run L 20 sampleCtx (.build (.frag (.mk (lit "$1") [.int 64 1, .int 64 2, .int 64 3] [.table (lit "t")] [] [])))
      (St.init question [])).1 = .err (.wrap (lit "$1") (.unused (some 2) (some 1))) :=
  ⟨fun name as h => by simp at h, by kernel_rfl⟩

end Sqlf.Props
