import Verif.Proofs.JoinEv
import Verif.Proofs.DocText
import Verif.Props.Context
/-!
# C29–C31, C43: `#join`

The template of a `#join` is a list of expressions `est`; `atIndex i est` is its `i`-th item: the
bare functions are called with `i`.  `bareFuncs est` are those functions.
-/

namespace Sqlf.Props

open Spec

/-! ## C29 -/

/-- The items of a `#join` template, evaluated one after the other. -/
abbrev Items (L : GoLib) (ctx : Ctx) (est : List Expr) :=
  InOrder fun i s t s1 => Evals L ctx (.clause (atIndex i est)) s (.ok t, s1)

private theorem items_ev {L : GoLib} {ctx : Ctx} {est : List Expr} {i : Int} {s s' : St}
    {ts : List Str} (h : Items L ctx est i s ts s') :
    InOrder (fun i s t s1 => Ev (fun n => run L n ctx (.clause (atIndex i est))) s (.ok t, s1))
      i s ts s' := by
  induction h with
  | nil => exact .nil _ _
  | cons h _ ih => exact .cons h.2 ih

/-- **C29** (explicit end) `#join(template, sep, first, last)` with `last > 0`: if the items
`first` (at least 1) to `last` evaluate one after the other to the texts `ts`, the call evaluates
to the non-empty ones of them in order, separated by the separator. -/
theorem C29_join_of_a_range (L : GoLib) (ctx : Ctx) (as : List CallArg) (tm sep : Str)
    (est : List Expr) (first last : Int) (s s' : St) (ts : List Str)
    (hb : BuiltIn L ctx (lit "join")) (ha : joinArgs L as = .ok (tm, sep, [first, last]))
    (hp : parse L tm = .ok est) (hne : bareFuncs est ≠ [])
    (hj : ∀ g ∈ bareFuncs est, isListFunc g = true ∧ BuiltIn L ctx g)
    (hlast : 0 < last) (hn : (ts.length : Int) = last - max first 1 + 1) (hts : ts ≠ [])
    (h : Items L ctx est (max first 1) s ts s') :
    Evals L ctx (.clause [.call (lit "join") as]) s
      (.ok (strJoin sep (ts.filter (· ≠ []))), s') := by
  refine ⟨by simp, ev_run_clause_single ?_⟩
  have hpos : 0 < ts.length := List.length_pos_iff.2 hts
  exact join_ev hb ha hp (by simp) (by simp; omega)
    (fun g hg => builtIn_joinable (hj g hg).1 (hj g hg).2) hne (items_ev h)
    (.inl ⟨by simpa using hlast, hts, by simp; omega, rfl⟩)

/-- **C29** (up to the end) `#join(template, sep)` and `#join(template, sep, first)`: the items
run up to the end of the list of the first function `g` of the template.  The template is tidy:
only text before that function, and no function that runs over a shorter list. -/
theorem C29_join_of_all (L : GoLib) (ctx : Ctx) (fr : Frame) (as : List CallArg) (tm sep : Str)
    (est : List Expr) (is : List Int) (g : Str) (gs : List Str) (s s' : St) (ts : List Str)
    (hc : ctx.frame = some fr)
    (hb : BuiltIn L ctx (lit "join")) (ha : joinArgs L as = .ok (tm, sep, is))
    (hp : parse L tm = .ok est) (hg : bareFuncs est = g :: gs)
    (hj : ∀ g ∈ bareFuncs est, isListFunc g = true ∧ BuiltIn L ctx g)
    (htidy : tidyItems fr.args.length fr.frags.length est = true)
    (hl : is.length ≤ 2) (hlast : is.getD 1 0 ≤ 0)
    (hn : (ts.length : Int) = listLen fr.args.length fr.frags.length g - max (is.getD 0 0) 1 + 1)
    (hfirst : 0 < is.getD 0 0 → ts ≠ [])
    (h : Items L ctx est (max (is.getD 0 0) 1) s ts s') :
    Evals L ctx (.clause [.call (lit "join") as]) s
      (.ok (strJoin sep (ts.filter (· ≠ []))), s') := by
  refine ⟨by simp, ev_run_clause_single ?_⟩
  have hgm : g ∈ bareFuncs est := by rw [hg]; simp
  refine join_ev hb ha hp hl (by omega)
    (fun g hg => builtIn_joinable (hj g hg).1 (hj g hg).2) (by rw [hg]; simp) (items_ev h)
    (.inr ⟨by omega, hfirst, _, ?_, clause_end hc (hj g hgm).1 (hj g hgm).2 hg htidy (by omega) s'⟩)
  rfl

/-- **C29** (all fragments) A fragment whose template is `#join('#f', sep)`: it builds its
fragments one after the other, and its text is the trimmed join of the non-empty ones.  (Prefix
and suffix are added as C27 says.) -/
theorem C29_join_of_all_fragments (L : GoLib) (ctx : Ctx) (raw sep g : Str)
    (cs : List Builder) (s s' : St) (ts : List Str)
    (hb : BuiltIn L ctx (lit "join")) (hg : g = lit "f" ∨ g = lit "fragment")
    (hbg : BuiltIn L ctx g)
    (hp : parse L raw = .ok [.call (lit "join") [.str (lit "#" ++ g), .str sep]])
    (hn : ts.length = cs.length)
    (h : InOrder (fun i s t s1 => ∃ c, item? i cs = some c ∧ BuildsTo L ctx c s (.ok t, s1))
      1 s ts s') :
    BuildsTo L ctx (.frag (.mk raw [] cs [] [])) s
      (.ok (trimSpace (strJoin sep (ts.filter (· ≠ [])))), s') := by
  have hu := h.used
  have hl : isListFunc g = true := by rcases hg with rfl | rfl <;> decide
  have ht : parse L (lit "#" ++ g) = .ok [.func g, .plain []] := by
    rcases hg with rfl | rfl
    · kernel_rfl
    · kernel_rfl
  have hga : g ≠ lit "arg" := by rcases hg with rfl | rfl <;> decide
  have hlen : listLen 0 cs.length g = cs.length := by unfold listLen; rw [if_neg hga]
  rw [buildsTo_iff]
  refine ⟨by simp, ?_⟩
  have hit := frag_items (f := .mk raw [] cs [] []) (k := 0) hg hbg rfl h
  have hjoin := join_ev (ctx := ctx.withFragment (.mk raw [] cs [] []))
    (as := [.str (lit "#" ++ g), .str sep]) (is := []) (sep := sep) (builtIn_withFragment _ hb) rfl ht (by simp) (by simp)
    (by
      intro g' hg'
      simp only [bareFuncs, List.mem_singleton] at hg'
      subst hg'
      exact builtIn_joinable hl (builtIn_withFragment _ hbg)) (by simp [bareFuncs]) hit
    (s'' := setUsed s' [] (marks (0 + ts.length)))
    (.inr ⟨by simp, by simp, _, rfl, clause_end (fr := ⟨[], cs⟩) rfl hl (builtIn_withFragment _ hbg)
      (by rfl) (by rfl) (by dsimp only [List.length_nil]; rw [hlen]; simp; omega) _⟩)
  have hcl := Ev.clause_cons (es := []) hjoin (.const (M.pure []) _)
  rw [List.append_nil] at hcl
  have := Ev.fragment (s := s) (f := .mk raw [] cs [] []) hp hcl (by
    unfold checkUsage
    have h1 : firstUnused (setUsed s' [] (marks (0 + ts.length))).usedF cs.length = none :=
      firstUnused_none.2 fun k hk => mem_marks (by omega)
    simp only [Fragment.args, Fragment.frags, List.length_nil, firstUnused, h1])
  have h2 : setUsed (setUsed s' [] (marks (0 + ts.length))) s.usedA s.usedF = s' := by
    unfold setUsed
    rw [← hu.1, ← hu.2]
  rw [h2] at this
  have h3 : ∀ body, decorate [] [] body = trimSpace body := by
    intro body
    unfold decorate
    by_cases h : trimSpace body = [] <;> simp [h]
  have h4 : decorate (Fragment.mk raw [] cs [] []).pre (Fragment.mk raw [] cs [] []).suf
      (strJoin sep (ts.filter (· ≠ []))) = trimSpace (strJoin sep (ts.filter (· ≠ []))) := h3 _
  rw [h4] at this
  exact this

private theorem strJoin_mark {sep : Str} {ps : List Str} (h : Marks ps) (hne : ps ≠ []) :
    Mark (strJoin sep ps) := by
  induction ps with
  | nil => exact absurd rfl hne
  | cons p ps ih =>
    have hp := h p (by simp)
    cases ps with
    | nil => exact hp
    | cons q ps =>
      have hq := ih (fun x hx => h x (by simp [hx])) (by simp)
      refine ⟨by simp [strJoin, hp.ne], fun b hb => hp.head b ?_, fun b hb => hq.last b ?_⟩
      · rw [← hb]
        unfold strJoin
        rw [List.append_assoc]
        cases p with
        | nil => exact absurd rfl hp.ne
        | cons x p => rfl
      · rw [← hb]
        show _ = (p ++ sep ++ strJoin sep (q :: ps)).getLast?
        rw [List.getLast?_append]
        cases hl : (strJoin sep (q :: ps)).getLast? with
        | none => exact absurd (List.getLast?_eq_none_iff.1 hl) hq.ne
        | some x => rfl

private theorem trimSpace_mark {t : Str} (h : t = [] ∨ Mark t) : trimSpace t = t := by
  rcases h with rfl | h
  · rfl
  · unfold trimSpace
    have h1 : trimLeft t = t := by
      exact trimLeft_append [] t h.head
    have h2 : trimRight t = t := by
      have : trimRight (t ++ []) = t ++ [] := trimRight_append t [] h.last
      rwa [List.append_nil] at this
    rw [h1, h2]

/-- **C29** (all arguments) A fragment whose template is `#join('#arg', sep)` commits all its
arguments in order; its text is their placeholders, separated by the separator. -/
theorem C29_join_of_all_arguments (L : GoLib) (ctx : Ctx) (raw sep : Str)
    (vs : List Val) (s : St) (st : Store) (ps : List Str)
    (hb : BuiltIn L ctx (lit "join")) (hbg : BuiltIn L ctx (lit "arg"))
    (hp : parse L raw = .ok [.call (lit "join") [.str (lit "#arg"), .str sep]])
    (h : commitAll s.store vs = some (ps, st)) :
    BuildsTo L ctx (.frag (.mk raw vs [] [] [])) s (.ok (strJoin sep ps), { s with store := st }) := by
  have hl : isListFunc (lit "arg") = true := by decide
  have ht : parse L (lit "#arg") = .ok [.func (lit "arg"), .plain []] := by kernel_rfl
  have hlen : ps.length = vs.length := commitAll_length h
  rw [buildsTo_iff]
  refine ⟨by simp, ?_⟩
  have hit := arg_items (f := .mk raw vs [] [] []) (k := 0) hbg rfl (vs := vs) (by simp [Fragment.args]) h []
  have hjoin := join_ev (ctx := ctx.withFragment (.mk raw vs [] [] []))
    (as := [.str (lit "#arg"), .str sep]) (is := []) (sep := sep) (builtIn_withFragment _ hb) rfl ht (by simp) (by simp)
    (by
      intro g' hg'
      simp only [bareFuncs, List.mem_singleton] at hg'
      subst hg'
      exact builtIn_joinable hl (builtIn_withFragment _ hbg)) (by simp [bareFuncs]) hit
    (s'' := setUsed { s with store := st } (marks (0 + ps.length)) [])
    (.inr ⟨by simp, by simp, _, rfl, clause_end (fr := ⟨vs, []⟩) rfl hl (builtIn_withFragment _ hbg)
      (by rfl) (by rfl) (by simp [listLen]; omega) _⟩)
  have hcl := Ev.clause_cons (es := []) hjoin (.const (M.pure []) _)
  rw [List.append_nil] at hcl
  have := Ev.fragment (s := s) (f := .mk raw vs [] [] []) hp hcl (by
    unfold checkUsage
    have h1 : firstUnused (setUsed { s with store := st } (marks (0 + ps.length)) []).usedA vs.length = none :=
      firstUnused_none.2 fun k hk => mem_marks (by omega)
    simp only [Fragment.args, Fragment.frags, List.length_nil, firstUnused, h1])
  have hm := commitAll_marks h
  have hf : ps.filter (· ≠ []) = ps := by
    rw [List.filter_eq_self]
    intro p hp
    simpa using (hm p hp).ne
  rw [hf] at this
  have h3 : ∀ body, decorate [] [] body = trimSpace body := by
    intro body
    unfold decorate
    by_cases h : trimSpace body = [] <;> simp [h]
  have h4 : decorate (Fragment.mk raw vs [] [] []).pre (Fragment.mk raw vs [] [] []).suf
      (strJoin sep ps) = strJoin sep ps := by
    refine (h3 _).trans (trimSpace_mark ?_)
    by_cases hps : ps = []
    · subst hps; exact .inl rfl
    · exact .inr (strJoin_mark hm hps)
  rw [h4] at this
  exact this

/-- Ranges, all arguments, all fragments (one of which is empty). -/
example (L : GoLib) : joinArgs L [.str (lit "a#arg"), .str (lit ", "), .num (.nat 2), .num (.nat 3)] =
      .ok (lit "a#arg", lit ", ", [2, 3]) ∧
    parse L (lit "a#arg") = .ok [.plain (lit "a"), .func (lit "arg"), .plain []] ∧
    Returns L (.frag (.Fa (lit "$1 #join('a#arg', ', ', 2, 3)") [.int 64 7, .int 64 8, .int 64 9]))
      dollar [] (.ok (lit "$1 a$2, a$3", [.int 64 7, .int 64 8, .int 64 9])) ∧
    Returns L (.frag (.Fa (lit "#join('#arg', ', ')") [.int 64 7, .int 64 8, .int 64 7]))
      dollar [] (.ok (lit "$1, $2, $1", [.int 64 7, .int 64 8])) ∧
    Returns L (.frag (.Ff (lit "#join('#f', ', ')") [.table (lit "t"), .frag (.F []), .table (lit "u")]))
      dollar [] (.ok (lit "t, u", [])) :=
  ⟨by kernel_rfl, by kernel_rfl, returns_of_buildQuery (n := 200) (by kernel_rfl) (by simp),
    returns_of_buildQuery (n := 200) (by kernel_rfl) (by simp),
    returns_of_buildQuery (n := 200) (by kernel_rfl) (by simp)⟩

/-! ## C30 -/

/-- **C30** A fragment whose template has a `#join` with a positive first or last index behind
the end of a list its own template runs over never builds. -/
theorem C30_join_range_must_exist (L : GoLib) (ctx : Ctx) (f : Fragment) (es est : List Expr)
    (as : List CallArg) (tm sep g : Str) (is : List Int) (i : Int)
    (hp : parse L f.raw = .ok es) (hm : .call (lit "join") as ∈ es)
    (ha : joinArgs L as = .ok (tm, sep, is)) (ht : parse L tm = .ok est) (hg : .func g ∈ est)
    (hl : isListFunc g = true) (hb : BuiltIn L ctx (lit "join")) (hbg : BuiltIn L ctx g)
    (hi : i = is.getD 0 0 ∨ i = is.getD 1 0) (hpos : 0 < i)
    (hbad : i > listLen f.args.length f.frags.length g)
    (s s' : St) (o : Out Str) (h : BuildsTo L ctx (.frag f) s (o, s')) : ∀ t, o ≠ .ok t := by
  rintro t rfl
  obtain ⟨n, h⟩ := buildsTo_frag h
  obtain ⟨es', body, s1, h1, h2, -⟩ := buildFragment_ok.1 h
  rw [hp] at h1
  cases h1
  obtain ⟨s2, t2, s3, h3⟩ := buildClause_ok_mem h2 _ hm
  have h4 := joinExpr_ok (ctx := ctx.withFragment f) (builtIn_withFragment f hb) ha ht
    (P := fun i => 1 ≤ i ∧ i ≤ listLen f.args.length f.frags.length g)
    (clause_index_ok (fr := ⟨f.args, f.frags⟩) rfl hl (builtIn_withFragment f hbg) hg) h3
  rcases hi with rfl | rfl
  · have := (h4.2 hpos).2; omega
  · have := (h4.1 hpos).2; omega

/-- Three fragments, range 2 to 4. -/
example (L : GoLib) : parse L (lit "#join('#f', ',', 2, 4)") =
      .ok [.call (lit "join") [.str (lit "#f"), .str (lit ","), .num (.nat 2), .num (.nat 4)]] ∧
    joinArgs L [.str (lit "#f"), .str (lit ","), .num (.nat 2), .num (.nat 4)] =
      .ok (lit "#f", lit ",", [2, 4]) ∧ parse L (lit "#f") = .ok [.func (lit "f"), .plain []] ∧
    isListFunc (lit "f") = true ∧ listLen 0 3 (lit "f") = 3 ∧
    (run L 20 sampleCtx (.build (.frag (.Ff (lit "#f1#join('#f', ',', 2, 4)")
      [.table (lit "t"), .table (lit "u"), .table (lit "v")]))) (St.init question [])).1 =
      .err (.wrap (lit "#f1#join('#f', ',', 2, 4)") (.wrap (lit "join") (.wrap (lit "f") (.invalidIndex 4)))) :=
  ⟨by kernel_rfl, by kernel_rfl, by kernel_rfl, by decide, by decide, by kernel_rfl⟩

/-! ## C31 -/

/-- **C31** (`_partial`: an item that fails with `ErrInvalidIndex` ends a `#join` without
explicit end, see `C31_counterexample`) If the items before it evaluate, and an item of the range
of a `#join` fails — with any error if the item is the explicit first one, or if the last one is
explicit, and otherwise with an error that is not `ErrInvalidIndex`, or with a panic — then the
`#join` fails with that error. -/
theorem C31_failing_item_fails_join_partial (L : GoLib) (ctx : Ctx) (as : List CallArg) (tm sep : Str)
    (est : List Expr) (is : List Int) (s s1 s2 : St) (ts : List Str) (o : Out Str) (k : Int)
    (hb : BuiltIn L ctx (lit "join")) (ha : joinArgs L as = .ok (tm, sep, is))
    (hp : parse L tm = .ok est) (hne : bareFuncs est ≠ [])
    (hj : ∀ g ∈ bareFuncs est, isListFunc g = true ∧ BuiltIn L ctx g)
    (hl : is.length ≤ 2) (h : Items L ctx est (max (is.getD 0 0) 1) s ts s1)
    (hk : k = max (is.getD 0 0) 1 + ts.length) (hlast : 0 < is.getD 1 0 → k ≤ is.getD 1 0)
    (hi : Evals L ctx (.clause (atIndex k est)) s1 (o, s2))
    (ho : HardFailure o ∨ ((0 < is.getD 0 0 ∧ k = is.getD 0 0 ∨ 0 < is.getD 1 0) ∧ ∀ t, o ≠ .ok t)) :
    ∃ e, Evals L ctx (.clause [.call (lit "join") as]) s (.err (.wrap (lit "join") e), s2) ∧
      (o = .err e ∨ ∃ p, o = .panic p ∧ e = p.toErr) := by
  subst hk
  obtain ⟨e, he, h1⟩ := join_fail hb ha hp hl
    (fun g hg => builtIn_joinable (hj g hg).1 (hj g hg).2) hne (items_ev h) hlast hi.2 (by
      cases o with
      | ok t =>
        rcases ho with ho | ho
        · exact absurd ho (by simp [HardFailure])
        · exact absurd rfl (ho.2 t)
      | panic p => exact .inl ⟨p, rfl⟩
      | oof => exact absurd rfl hi.1
      | err e =>
        refine .inr ⟨e, rfl, ?_⟩
        rcases ho with ho | ho
        · exact .inl ho
        · exact .inr ho.1)
  exact ⟨e, ⟨by simp, Ev.run.2 (Ev.clause_err he)⟩, h1⟩

/-- **C31**, the other case: an item that fails with `ErrInvalidIndex`, and is neither the explicit first one nor before
an explicit last one, ends the `#join`.  The call evaluates to the items before it, and what the item committed
before it failed remains. -/
theorem C31_index_failure_ends_join (L : GoLib) (ctx : Ctx) (as : List CallArg) (tm sep : Str)
    (est : List Expr) (is : List Int) (s s1 s2 : St) (ts : List Str) (e : Err) (k : Int)
    (hb : BuiltIn L ctx (lit "join")) (ha : joinArgs L as = .ok (tm, sep, is))
    (hp : parse L tm = .ok est) (hne : bareFuncs est ≠ [])
    (hj : ∀ g ∈ bareFuncs est, isListFunc g = true ∧ BuiltIn L ctx g)
    (hl : is.length ≤ 2) (h : Items L ctx est (max (is.getD 0 0) 1) s ts s1)
    (hk : k = max (is.getD 0 0) 1 + ts.length) (hlast : is.getD 1 0 ≤ 0)
    (hfirst : 0 < is.getD 0 0 → k ≠ is.getD 0 0)
    (hi : Evals L ctx (.clause (atIndex k est)) s1 (.err e, s2)) (he : e.isInvalidIndex = true) :
    Evals L ctx (.clause [.call (lit "join") as]) s (.ok (strJoin sep (ts.filter (· ≠ []))), s2) := by
  subst hk
  refine ⟨by simp, ev_run_clause_single ?_⟩
  refine join_ev hb ha hp hl (by omega) (fun g hg => builtIn_joinable (hj g hg).1 (hj g hg).2) hne (items_ev h)
    (.inr ⟨by omega, ?_, e, he, hi.2⟩)
  rintro h0 rfl
  refine hfirst h0 ?_
  show max (is.getD 0 0) 1 + ((0 : Nat) : Int) = is.getD 0 0
  omega

/-- The first two arguments are committed; the second item then fails because there is no second fragment. -/
example (L : GoLib) : ∃ ctx s1 s2 e, BuiltIn L ctx (lit "join") ∧ BuiltIn L ctx (lit "arg") ∧ BuiltIn L ctx (lit "f") ∧
    joinArgs L [.str (lit "#arg #f"), .str (lit ",")] = .ok (lit "#arg #f", lit ",", []) ∧
    parse L (lit "#arg #f") = .ok [.func (lit "arg"), .plain (lit " "), .func (lit "f"), .plain []] ∧
    Items L ctx [.func (lit "arg"), .plain (lit " "), .func (lit "f"), .plain []] 1 (St.init question []) [lit "? x"] s1 ∧
    Evals L ctx (.clause (atIndex 2 [.func (lit "arg"), .plain (lit " "), .func (lit "f"), .plain []])) s1 (.err e, s2) ∧
    e.isInvalidIndex = true ∧ s2.store.args = [.int 64 1, .int 64 2] := by
  let est := [Expr.func (lit "arg"), .plain (lit " "), .func (lit "f"), .plain []]
  let ctx := rootCtx.withFragment (.mk [] [.int 64 1, .int 64 2] [.table (lit "x")] [] [])
  let s1 := (run L 20 ctx (.clause (atIndex 1 est)) (St.init question [])).2
  let s2 := (run L 20 ctx (.clause (atIndex 2 est)) s1).2
  have h1 : run L 20 ctx (.clause (atIndex 1 est)) (St.init question []) = (.ok (lit "? x"), s1) := by kernel_rfl
  have h2 : run L 20 ctx (.clause (atIndex 2 est)) s1 = (.err (.wrap (lit "f") (.invalidIndex 2)), s2) := by kernel_rfl
  exact ⟨ctx, s1, s2, .wrap (lit "f") (.invalidIndex 2), ⟨rootCtx, newContext_eq L, rfl⟩, ⟨rootCtx, newContext_eq L, rfl⟩,
    ⟨rootCtx, newContext_eq L, rfl⟩, rfl, by kernel_rfl, .cons (evals_of_run h1 (by simp)) (.nil _ _),
    evals_of_run h2 (by simp), rfl, by kernel_rfl⟩

/-- **C31** (`_partial`, whole fragments) A fragment one of whose fragments never builds, but
fails with an error that is not `ErrInvalidIndex` or with a panic, never builds. -/
theorem C31_failing_fragment_fails_build_partial (L : GoLib) (ctx : Ctx) (f : Fragment) (c : Builder)
    (hc : c ∈ f.frags)
    (hfail : ∀ s o s', BuildsTo L (ctx.withFragment f) c s (o, s') → HardFailure o)
    (s s' : St) (o : Out Str) (h : BuildsTo L ctx (.frag f) s (o, s')) : ∀ t, o ≠ .ok t := by
  rintro t rfl
  obtain ⟨k, hk, rfl⟩ := List.mem_iff_getElem.1 hc
  obtain ⟨n, h⟩ := buildsTo_frag h
  have hrel : UseRel L (ctx.withFragment f) ⟨f.args, f.frags⟩ fun _ uf _ => k ∉ uf := by
    refine ⟨fun h _ => h, fun h _ _ => h, ?_⟩
    intro n j b s hj hs
    by_cases hjk : j = k
    · subst hjk
      right
      simp only [List.getElem?_eq_getElem hk, Option.some.injEq] at hj
      subst hj
      rcases hr : run L n (ctx.withFragment f) (.build f.frags[j])
        { s with usedF := j :: s.usedF } with ⟨o, s'⟩
      by_cases ho : o = .oof
      · subst ho; trivial
      · have := hfail _ o s' (evals_of_run hr ho)
        cases o with
        | ok => exact this
        | err => exact this
        | oof => trivial
        | panic p => cases p <;> first | exact this | rfl
    · left
      simp only [List.mem_cons, not_or]
      exact ⟨fun h => hjk h.symm, hs⟩
  obtain ⟨ua, uf, h1, -, h3⟩ := buildFragment_use hrel n n s s' t (by simp) h
  exact h1 (h3 k hk)

/-- The second item is a fragment without template argument. -/
example (L : GoLib) : Returns L (.frag (.Ff (lit "#join('#f', ', ')")
      [.table (lit "t"), .frag (.F (lit "?")), .table (lit "u")])) question []
    (.err (.wrap (lit "#join('#f', ', ')") (.wrap (lit "join") (.wrap (lit "f")
      (.wrap (lit "?") (.bindVarIndex 1)))))) :=
  returns_of_buildQuery (n := 200) (by kernel_rfl) (by simp)

/-- The full C31 fails: the last of three items fails with `ErrInvalidIndex`, and the build
succeeds without it. -/
theorem C31_counterexample (L : GoLib) :
    Returns L (.frag (.Ff (lit "#join('#f', ', ')")
      [.table (lit "t"), .table (lit "u"), .frag (.Ff (lit "#f1") [])])) question []
      (.ok (lit "t, u", [])) ∧
    Returns L (.frag (.Ff (lit "#f1") [])) question []
      (.err (.wrap (lit "#f1") (.wrap (lit "f") (.invalidIndex 1)))) :=
  ⟨returns_of_buildQuery (n := 200) (by kernel_rfl) (by simp),
    returns_of_buildQuery (n := 200) (by kernel_rfl) (by simp)⟩

/-! ## C43 -/

/-- A function from an index to a text or an error, with or without the context. -/
structure ItemFunc (fi : FuncInfo) : Prop where
  ins : ∃ k ty, fi.ins = [.num k ty] ∨ fi.ins = [.context, .num k ty]
  notVariadic : fi.variadic = false
  outs : fi.outs = [.string 0, .error]

/-- The function yields `n` items: it reports `ErrInvalidIndex`, and does nothing else, for every
other index, in any context and state. -/
def EndsAfter (L : GoLib) (fi : FuncInfo) (n : Nat) : Prop :=
  ∀ ctx s (i : Int), i < 1 ∨ n < i →
    ∃ e, e.isInvalidIndex = true ∧ Evals L ctx (.call fi [.int i]) s (.err e, s)

private theorem evals_call {L : GoLib} {ctx : Ctx} {fi : FuncInfo} {i : Int} {s : St} {r : Out Str × St}
    (h : Evals L ctx (.call fi [.int i]) s r) {name : Str} (hf : ctx.fn name = some fi) :
    Ev (fun n => evalExpr L (run L n) n ctx (.call name [.int i])) s r := by
  have h1 : Ev (fun n => step L (run L n) n ctx (.call fi [.int i])) s r := (evals_iff.1 h).2
  refine Ev.congr h1 fun n => ?_
  show evalFunction L (run L n) n ctx name [.int i] s = evalCall L (run L n) n ctx fi [.int i] s
  unfold evalFunction
  rw [hf]

private theorem itemFunc_joinable {L : GoLib} {ctx : Ctx} {fi : FuncInfo} {n : Nat} (hi : ItemFunc fi)
    (he : EndsAfter L fi n) {name : Str} (hf : ctx.fn name = some fi) : Joinable L ctx name := by
  refine ⟨fi, hf, fun s => ?_⟩
  obtain ⟨e, h1, -, N, h2⟩ := he newEmptyContext.withNilFragment
    { s with store := .new question, usedA := [], usedF := [] } 0 (.inl (by omega))
  refine ⟨N, fun m hm => ?_⟩
  have hsig : joinSignatureOk fi = true := by
    obtain ⟨⟨k, ty, h⟩, hv, ho⟩ := hi
    unfold joinSignatureOk FuncInfo.inContextFirst
    rw [ho, hv]
    rcases h with h | h <;> rw [h] <;> rfl
  show joinCompatible (run L m) fi s = _
  unfold joinCompatible
  rw [hsig]
  dsimp only [Bool.not_true]
  rw [h2 m hm, if_neg (by decide)]
  dsimp only
  rw [h1]

/-- **C43** In a context with a custom function that yields the items 1 to `n` and reports
`ErrInvalidIndex` for all other indexes, `#join('#name', sep)` evaluates the `n` items one after
the other, and nothing else; its text is the non-empty ones joined. -/
theorem C43_custom_function_joined (L : GoLib) (ctx : Ctx) (name tm sep : Str) (fi : FuncInfo)
    (s s' : St) (ts : List Str) (hb : BuiltIn L ctx (lit "join")) (hf : ctx.fn name = some fi)
    (hi : ItemFunc fi) (he : EndsAfter L fi ts.length) (ht : parse L tm = .ok [.func name, .plain []])
    (h : InOrder (fun i s t s1 => Evals L ctx (.call fi [.int i]) s (.ok t, s1)) 1 s ts s') :
    Evals L ctx (.clause [.call (lit "join") [.str tm, .str sep]]) s
      (.ok (strJoin sep (ts.filter (· ≠ []))), s') := by
  refine ⟨by simp, ev_run_clause_single ?_⟩
  have hit : InOrder (fun i s t s1 =>
      Ev (fun n => run L n ctx (.clause (atIndex i [.func name, .plain []]))) s (.ok t, s1)) 1 s ts s' := by
    clear he
    revert h
    generalize (1 : Int) = i
    intro h
    induction h with
    | nil => exact .nil _ _
    | cons h _ ih => exact .cons (ev_run_clause_bare (evals_call h hf)) ih
  obtain ⟨e, h1, h2⟩ := he ctx s' (1 + ts.length) (.inr (by omega))
  exact join_ev hb (is := []) rfl ht (by simp) (by simp)
    (by
      intro g' hg'
      simp only [bareFuncs, List.mem_singleton] at hg'
      subst hg'
      exact itemFunc_joinable hi he hf) (by simp [bareFuncs]) hit
    (.inr ⟨by simp, by simp, e, h1, Ev.run.2 (Ev.clause_err (evals_call h2 hf))⟩)

/-- The function is not one of a list of items: it does not return a text and an error, or it accepts the
index 0, or it fails there for another reason than `ErrInvalidIndex`. -/
def NotListed (L : GoLib) (fi : FuncInfo) : Prop :=
  fi.outs.length ≠ 2 ∨ ∀ s, ∃ o, Evals L newEmptyContext.withNilFragment (.call fi [.int 0]) s (o, s) ∧
    ((∃ t, o = .ok t) ∨ ∃ e, o = .err e ∧ e.isInvalidIndex = false)

private theorem notListed_incompatible {L : GoLib} {fi : FuncInfo} (h : NotListed L fi) (s : St) :
    ∃ N, ∀ n, N ≤ n → joinCompatible (run L n) fi s = (.ok false, s) := by
  unfold joinCompatible
  by_cases hs : joinSignatureOk fi = true
  · rcases h with h | h
    · exfalso
      unfold joinSignatureOk at hs
      simp [h] at hs
    · obtain ⟨o, ⟨-, N, h1⟩, h2⟩ := h { s with store := .new question, usedA := [], usedF := [] }
      refine ⟨N, fun n hn => ?_⟩
      rw [hs]
      dsimp only [Bool.not_true]
      rw [h1 n hn, if_neg (by decide)]
      rcases h2 with ⟨t, rfl⟩ | ⟨e, rfl, he⟩
      · rfl
      · dsimp only; rw [he]
  · refine ⟨0, fun n _ => ?_⟩
    have : joinSignatureOk fi = false := by simpa using hs
    rw [this]
    rfl

private theorem joinCheck_rejects {L : GoLib} {ctx : Ctx} {name : Str} {fi : FuncInfo} (hf : ctx.fn name = some fi)
    {s : St} {n : Nat} (h : joinCompatible (run L n) fi s = (.ok false, s)) {est : List Expr} {rest : List Str}
    (hb : bareFuncs est = name :: rest) : joinCheck (run L n) ctx est s = (.err (.joinIncompatible name), s) := by
  induction est with
  | nil => cases hb
  | cons e est ih =>
    cases e with
    | func g =>
      simp only [bareFuncs, List.cons.injEq] at hb
      obtain ⟨rfl, -⟩ := hb
      unfold joinCheck
      rw [hf]
      show M.bind (joinCompatible (run L n) fi) _ s = _
      unfold M.bind
      rw [h]
      rfl
    | plain t => exact ih hb
    | bindVar a b => exact ih hb
    | call a b => exact ih hb

/-- **C43**, the other way round: a function that is not one of a list is rejected by `#join`, and nothing is
evaluated or committed. -/
theorem C43_other_functions_are_rejected (L : GoLib) (ctx : Ctx) (name tm sep : Str) (fi : FuncInfo) (s : St)
    (es : List Expr) (rest : List Str) (hb : BuiltIn L ctx (lit "join")) (hf : ctx.fn name = some fi)
    (hn : NotListed L fi) (ht : parse L tm = .ok es) (hfirst : bareFuncs es = name :: rest) :
    Evals L ctx (.clause [.call (lit "join") [.str tm, .str sep]]) s
      (.err (.wrap (lit "join") (.joinIncompatible name)), s) := by
  refine evals_iff.2 ⟨by simp, ?_⟩
  refine Ev.clause_err (Ev.congr (.wrapErr_err ?_) (fun n => evalExpr_join hb (tm := tm) (sep := sep) (is := []) rfl n s))
  obtain ⟨N, h⟩ := notListed_incompatible hn s
  refine .safeCall_err ⟨N, fun n hn => ?_⟩
  show funcJoin L (run L n) n ctx tm sep [] s = _
  unfold funcJoin
  rw [if_neg (by simp), ht]
  show M.bind (joinCheck (run L n) ctx es) _ s = _
  unfold M.bind
  rw [joinCheck_rejects hf (h n hn) hfirst]

/-- The words of a list: `#word(1)` … `#word(3)`. -/
def wordFunc (ws : List Str) : FuncInfo where
  name := lit "word"
  ins := [.num .int 0]
  variadic := false
  outs := [.string 0, .error]
  body := .custom fun vs => match vs with
    | [.num _ (.int i)] => match item? i ws with
      | some w => .ret w
      | none => .fail (.invalidIndex i)
    | _ => .ret []

private theorem wordFunc_call (L : GoLib) (ws : List Str) (rec : Rec) (m : Nat) (ctx : Ctx) (i : Int) :
    evalCall L rec m ctx (wordFunc ws) [.int i] = .wrapErr (lit "word") (safeCall (M.bind
      (runProg L rec ctx (match item? i ws with
      | some w => .ret w
      | none => .fail (.invalidIndex i))) fun s => .pure s)) := rfl

/-- A function without an error, and one that accepts every index, are not functions of a list. -/
example (L : GoLib) : NotListed L { wordFunc [] with outs := [.string 0] } ∧
    NotListed L { wordFunc [] with body := .custom fun _ => .ret (lit "x") } := by
  refine ⟨.inl (by decide), .inr fun s => ⟨.ok (lit "x"), ?_, .inl ⟨_, rfl⟩⟩⟩
  rw [evals_iff]
  exact ⟨by simp, 0, fun n _ => rfl⟩

example (L : GoLib) : (run L 20 { rootCtx with funcs :=
      [(lit "word", { wordFunc [] with body := .custom fun _ => .ret (lit "x") })] :: rootCtx.funcs }
      (.build (.frag (.F (lit "(#join('#word', '+'))")))) (St.init question [])).1 =
    .err (.wrap (lit "(#join('#word', '+'))") (.wrap (lit "join") (.joinIncompatible (lit "word")))) := by kernel_rfl

/-- Every list gives a function that meets the hypotheses of C43. -/
example (L : GoLib) (ws : List Str) (ctx : Ctx) (s : St) : ItemFunc (wordFunc ws) ∧
    EndsAfter L (wordFunc ws) ws.length ∧
    ∀ i w, item? i ws = some w → Evals L ctx (.call (wordFunc ws) [.int i]) s (.ok w, s) := by
  refine ⟨⟨⟨.int, 0, .inl rfl⟩, rfl, rfl⟩, fun ctx s i hi => ⟨.wrap (lit "word") (.invalidIndex i), rfl, ?_⟩,
    fun i w hw => ?_⟩
  · have hnone : item? i ws = none := by
      unfold item?
      split
      · exact List.getElem?_eq_none (by omega)
      · rfl
    rw [evals_iff]
    refine ⟨by simp, 0, fun n _ => ?_⟩
    show evalCall L (run L n) n ctx (wordFunc ws) [.int i] s = _
    rw [wordFunc_call, hnone]
    rfl
  · rw [evals_iff]
    refine ⟨by simp, 0, fun n _ => ?_⟩
    show evalCall L (run L n) n ctx (wordFunc ws) [.int i] s = _
    rw [wordFunc_call, hw]
    rfl

example (L : GoLib) : parse L (lit "#word") = .ok [.func (lit "word"), .plain []] ∧
    (run L 20 { rootCtx with funcs := [(lit "word", wordFunc [lit "a", [], lit "c"])] :: rootCtx.funcs }
      (.build (.frag (.F (lit "(#join('#word', '+'))")))) (St.init question [])).1 = .ok (lit "(a+c)") :=
  ⟨by kernel_rfl, by kernel_rfl⟩

end Sqlf.Props
