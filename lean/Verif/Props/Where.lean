import Verif.Proofs.GoEqual
import Verif.Props.Query
import Verif.Props.Util
import Verif.Proofs.History
import Verif.Proofs.Cond
/-!
# Properties of conditions (C67, C72)
-/

namespace Sqlf.Props

open Spec

/-! ## C67 -/

theorem commitAll_some {s : Store} {vs : List Val} (h : s.isDollar = true → ∀ v ∈ vs, ¬ Unhashable v) :
    ∃ ps s', commitAll s vs = some (ps, s') ∧ ps.length = vs.length := by
  simp only [not_unhashable_iff] at h
  induction vs generalizing s with
  | nil => exact ⟨[], s, rfl, rfl⟩
  | cons v vs ih =>
    have : ∃ p s1, s.commit v = some (p, s1) ∧ s1.isDollar = s.isDollar := by
      unfold Store.commit
      by_cases hd : s.isDollar = true
      · rw [if_pos hd, if_neg (by simp [h hd v (by simp)])]
        split
        · exact ⟨_, _, rfl, rfl⟩
        · exact ⟨_, _, rfl, rfl⟩
      · rw [if_neg hd]
        exact ⟨_, _, rfl, rfl⟩
    obtain ⟨p, s1, h1, h2⟩ := this
    obtain ⟨ps, s', h3, h4⟩ := ih (s := s1) fun hd w hw => h (h2 ▸ hd) w (by simp [hw])
    exact ⟨p :: ps, s', by simp only [commitAll, h1, h3], by simp [h4]⟩

/-- A condition `column OP (value, …)`. -/
theorem in_condition {L : GoLib} {ctx : Ctx} (hj : BuiltIn L ctx (lit "join")) (hf : BuiltIn L ctx (lit "f"))
    (hbg : BuiltIn L ctx (lit "arg")) {raw mid : Str} {c : Builder} {vs : List Val}
    (hp : parse L raw = .ok [.call (lit "f") [.num (.nat 1)], .plain mid, .call (lit "join") [.str (lit "#arg"), .str (lit ", ")],
      .plain (lit ")")])
    {s s1 : St} {t : Str} (hc : BuildsTo L ctx c s (.ok t, s1)) {ps : List Str} {st : Store}
    (h : commitAll s1.store vs = some (ps, st)) :
    BuildsTo L ctx (.frag (.mk raw vs [c] [] [])) s
      (.ok (trimSpace (t ++ mid ++ strJoin (lit ", ") ps ++ lit ")")), { s1 with store := st }) := by
  have hl : isListFunc (lit "arg") = true := by decide
  have ht : parse L (lit "#arg") = .ok [.func (lit "arg"), .plain []] := by kernel_rfl
  have hlen : ps.length = vs.length := commitAll_length h
  have hu := hc.used
  rw [buildsTo_iff]
  refine ⟨by simp, ?_⟩
  have hcall := ev_frag_call (ctx := ctx.withFragment (.mk raw vs [c] [] [])) (fr := ⟨vs, [c]⟩) (s := s.fresh) rfl (.inl rfl)
    (builtIn_withFragment _ hf) (as := [.num (.nat 1)]) (i := 1) (by kernel_rfl) (c := c) rfl
    (Spec.BuildsTo.scoped (ctx := ctx) (ctx' := ctx.withFragment (.mk raw vs [c] [] [])) rfl hc [] [0]).2
  have hit := arg_items (ctx := ctx) (f := .mk raw vs [c] [] []) (k := 0) (s := s1) hbg rfl (vs := vs) (by simp [Fragment.args]) h [0]
  have hjoin := join_ev (ctx := ctx.withFragment (.mk raw vs [c] [] []))
    (as := [.str (lit "#arg"), .str (lit ", ")]) (is := []) (sep := lit ", ") (builtIn_withFragment _ hj) rfl ht (by simp) (by simp)
    (by
      intro g' hg'
      simp only [bareFuncs, List.mem_singleton] at hg'
      subst hg'
      exact builtIn_joinable hl (builtIn_withFragment _ hbg)) (by simp [bareFuncs]) hit
    (s'' := setUsed { s1 with store := st } (marks (0 + ps.length)) [0])
    (.inr ⟨by simp, by simp, _, rfl, clause_end (fr := ⟨vs, [c]⟩) rfl hl (builtIn_withFragment _ hbg)
      (by rfl) (by rfl) (by simp [listLen]; omega) _⟩)
  have hcl := Ev.clause_cons hcall (Ev.clause_cons (e := .plain mid) (.const (M.pure mid) _)
    (Ev.clause_cons hjoin (Ev.clause_cons (e := .plain (lit ")")) (es := []) (.const (M.pure (lit ")")) _) (.const (M.pure []) _))))
  have := Ev.fragment (s := s) (f := .mk raw vs [c] [] []) hp hcl (by
    unfold checkUsage
    have h1 : firstUnused (setUsed { s1 with store := st } (marks (0 + ps.length)) [0]).usedA vs.length = none :=
      firstUnused_none.2 fun k hk => mem_marks (by omega)
    have h2 : firstUnused (setUsed { s1 with store := st } (marks (0 + ps.length)) [0]).usedF 1 = none := by
      exact firstUnused_none.2 fun k hk => by simp [setUsed]; omega
    simp only [Fragment.args, Fragment.frags, List.length_singleton, h1, h2])
  have hm := commitAll_marks h
  have hfil : ps.filter (· ≠ []) = ps := by
    rw [List.filter_eq_self]
    intro p hp
    simpa using (hm p hp).ne
  rw [hfil] at this
  have h3 : ∀ body, decorate [] [] body = trimSpace body := by
    intro body
    unfold decorate
    by_cases h : trimSpace body = [] <;> simp [h]
  have h5 : setUsed (setUsed { s1 with store := st } (marks (0 + ps.length)) [0]) s.usedA s.usedF = { s1 with store := st } := by
    unfold setUsed
    rw [← hu.1, ← hu.2]
  rw [h5] at this
  have h4 : decorate (Fragment.mk raw vs [c] [] []).pre (Fragment.mk raw vs [c] [] []).suf
      (t ++ (mid ++ (strJoin (lit ", ") ps ++ (lit ")" ++ [])))) = trimSpace (t ++ mid ++ strJoin (lit ", ") ps ++ lit ")") := by
    refine (h3 _).trans ?_
    simp only [List.append_assoc, List.append_nil]
  rw [h4] at this
  exact this

/-- **C67** `WhereIn(c, list)` adds one condition to those of the WHERE clause (see C71); it builds to
`c IN (p1, …, pn)`, with one placeholder for every element of the list; these are committed in order after
what `c` commits.  `WhereNotIn` builds to `c NOT IN (…)`.  (In Dollar style list elements must be hashable,
see C16.) -/
theorem C67_where_in (L : GoLib) (ctx : Ctx) (hj : BuiltIn L ctx (lit "join")) (hf : BuiltIn L ctx (lit "f"))
    (ha : BuiltIn L ctx (lit "arg")) (c : Builder) (list : Val) (hl : isNilSlicePtr list = false) (call : Call) (op : Str)
    (hcall : call = .whereIn c list ∧ op = lit "IN" ∨ call = .whereNotIn c list ∧ op = lit "NOT IN") :
    ∃ f, (∀ b, runCalls b [call] = .ok { b with conditions := b.conditions.appendFragments [.frag f] }) ∧
      (∀ cs, conditionsOf (cs ++ [call]) = conditionsOf cs ++ [f]) ∧
      ∀ s s1 t, BuildsTo L ctx c s (.ok t, s1) →
        (s1.store.isDollar = true → ∀ v ∈ flatten [list], ¬ Unhashable v) →
        ∃ ps st, commitAll s1.store (flatten [list]) = some (ps, st) ∧ ps.length = (flatten [list]).length ∧
          BuildsTo L ctx (.frag f) s
            (.ok (trimSpace (t ++ lit " " ++ op ++ lit " (" ++ strJoin (lit ", ") ps ++ lit ")")), { s1 with store := st }) := by
  have hfl : argsFlatted [list] = .ok (flatten [list]) := C44_argsFlatted_is_flatten _ (by simpa using hl)
  rcases hcall with ⟨rfl, rfl⟩ | ⟨rfl, rfl⟩
  · refine ⟨.mk (lit "#f1 IN (#join('#arg', ', '))") (flatten [list]) [c] [] [], ?_, ?_, ?_⟩
    · intro b
      simp only [runCalls, Call.apply, QB.whereIn, QB.whereNotIn, QB.whereInOp, hfl]
      rfl
    · intro cs
      simp [conditionsOf, conditionOf, hfl]
    · intro s s1 t hc hh
      obtain ⟨ps, st, h1, h2⟩ := commitAll_some hh
      refine ⟨ps, st, h1, h2, ?_⟩
      have := in_condition hj hf ha (mid := lit " IN (") (raw := lit "#f1 IN (#join('#arg', ', '))") (by kernel_rfl) hc h1
      have h3 : lit " IN (" = lit " " ++ (lit "IN" ++ lit " (") := rfl
      rw [h3] at this
      simpa only [List.append_assoc] using this
  · refine ⟨.mk (lit "#f1 NOT IN (#join('#arg', ', '))") (flatten [list]) [c] [] [], ?_, ?_, ?_⟩
    · intro b
      simp only [runCalls, Call.apply, QB.whereIn, QB.whereNotIn, QB.whereInOp, hfl]
      rfl
    · intro cs
      simp [conditionsOf, conditionOf, hfl]
    · intro s s1 t hc hh
      obtain ⟨ps, st, h1, h2⟩ := commitAll_some hh
      refine ⟨ps, st, h1, h2, ?_⟩
      have := in_condition hj hf ha (mid := lit " NOT IN (") (raw := lit "#f1 NOT IN (#join('#arg', ', '))") (by kernel_rfl) hc h1
      have h3 : lit " NOT IN (" = lit " " ++ (lit "NOT IN" ++ lit " (") := rfl
      rw [h3] at this
      simpa only [List.append_assoc] using this

/-- A list with a repeated element, as a slice and as an array behind a pointer. -/
example (L : GoLib) : ∃ b, runCalls QB.new [.select [exprColumn (some (.F (lit "1")))], .from_ ⟨lit "u", []⟩,
      .whereIn (tableColumn (lit "u") (lit "id")) (.slice 1 [.int 64 7, .int 64 8, .int 64 7]),
      .whereNotIn (tableColumn (lit "u") (lit "x")) (.ptr 2 (.array 1 [.int 64 8]))] = .ok b ∧
    Returns L (.qb 0) dollar [b] (.ok (lit "SELECT 1 FROM u WHERE u.id IN ($1, $2, $1) AND u.x NOT IN ($2)",
      [.int 64 7, .int 64 8])) :=
  ⟨_, rfl, returns_of_buildQuery (n := 200) (by kernel_rfl) (by simp)⟩

/-- The hypotheses are met. -/
example (L : GoLib) : BuiltIn L rootCtx (lit "join") ∧ BuiltIn L rootCtx (lit "f") ∧ BuiltIn L rootCtx (lit "arg") ∧
    isNilSlicePtr (.slice 1 [.int 64 7, .int 64 8, .int 64 7]) = false ∧
    (∃ t s1, BuildsTo L rootCtx (tableColumn (lit "u") (lit "id")) (St.init dollar []) (.ok t, s1)) ∧
    ∀ v ∈ flatten [.slice 1 [.int 64 7, .int 64 8, .int 64 7]], ¬ Unhashable v :=
  ⟨⟨_, newContext_eq L, rfl⟩, ⟨_, newContext_eq L, rfl⟩, ⟨_, newContext_eq L, rfl⟩, rfl,
    ⟨lit "u.id", St.init dollar [], buildsTo_of_run (n := 100) (by kernel_rfl) (by simp)⟩,
    by simp only [not_unhashable_iff]; decide +kernel⟩

/-! ## C72 -/

/-- **C72** is false of the code: a condition with `OR` is not put into parentheses. -/
theorem C72_counterexample (L : GoLib) :
    ∃ cs b env, runCalls QB.new cs = .ok b ∧ conditionsOf cs = [.F (lit "a OR b"), .F (lit "c")] ∧
      Returns L (.qb 0) question [b] (.ok (lit "SELECT 1 FROM t WHERE a OR b AND c", [])) ∧
      ∀ n, holds env (n + 1) (lit "a OR b AND c") = true ∧ holds env (n + 1) (lit "c") = false :=
  ⟨[.select [exprColumn (some (.F (lit "1")))], .from_ ⟨lit "t", []⟩, .where_ (some (.F (lit "a OR b"))), .where_ (some (.F (lit "c")))],
    _, fun ws => ws == [lit "a"], rfl, rfl, returns_of_buildQuery (n := 200) (by kernel_rfl) (by simp),
    fun n => ⟨rfl, rfl⟩⟩

/-- **C72** (partial: conditions without `OR` outside of parentheses, see `C72_counterexample`; their
quotes and parentheses are closed) The WHERE clause holds if and only if all conditions hold. -/
theorem C72_conjunction_partial (L : GoLib) (ctx : Ctx) (hj : BuiltIn L ctx (lit "join"))
    (hf : BuiltIn L ctx (lit "fragment")) (cs : List Call) (b : QB) (hm : Made L cs b)
    (r : Nat) (s s' : St) (hr : s.heap[r]? = some b) (q : Str) (h : BuildsTo L ctx (.qb r) s (.ok q, s')) :
    ∃ ctes rows touches p, QueryBuilt L ctx cs ctes rows touches s p s' ∧ q = p.text ∧
      ((∀ w ∈ p.where_, w ≠ [] → AndSafe w) → (∃ w ∈ p.where_, w ≠ []) →
        ∃ c, clause (lit "WHERE") (listed (lit " AND ") p.where_) = [lit "WHERE " ++ c] ∧
          ∀ env n, holds env (n + 1) c = true ↔ ∀ w ∈ p.where_, w ≠ [] → holds env (n + 1) w = true) := by
  obtain ⟨dep, hb⟩ := query_ok ⟨hj, hf⟩ hr hm h
  obtain ⟨touches, p, mid, post, h2, h3, _⟩ := hb.built
  refine ⟨_, _, touches, p, h2, h3, ?_⟩
  intro hs hne
  obtain ⟨t, ts, he⟩ : ∃ t ts, p.where_.filter (· ≠ []) = t :: ts := by
    obtain ⟨w, hw, hw'⟩ := hne
    cases hf : p.where_.filter (· ≠ []) with
    | nil =>
      have : w ∈ p.where_.filter (· ≠ []) := List.mem_filter.2 ⟨hw, by simpa using hw'⟩
      rw [hf] at this
      cases this
    | cons t ts => exact ⟨t, ts, rfl⟩
  have hmem : ∀ w, w ∈ t :: ts ↔ w ∈ p.where_ ∧ w ≠ [] := by
    intro w
    rw [← he, List.mem_filter]
    simp
  have hsafe : ∀ w ∈ t :: ts, AndSafe w := fun w hw => hs w ((hmem w).1 hw).1 ((hmem w).1 hw).2
  have hl : listed (lit " AND ") p.where_ = strJoin (lit " AND ") (t :: ts) := by
    unfold listed
    rw [he]
    exact andSafe_trim (holds_join (env := fun _ => true) (n := 0) hsafe).1
  refine ⟨strJoin (lit " AND ") (t :: ts), ?_, ?_⟩
  · rw [hl]
    unfold clause
    rw [if_neg]
    · rfl
    · intro h0
      obtain ⟨x, hx, -⟩ := (holds_join (env := fun _ => true) (n := 0) hsafe).1.first
      rw [h0] at hx
      cases hx
  · intro env n
    rw [(holds_join hsafe).2, List.all_eq_true]
    constructor
    · intro h w hw hw'
      exact h w ((hmem w).2 ⟨hw, hw'⟩)
    · intro h w hw
      exact h w ((hmem w).1 hw).1 ((hmem w).1 hw).2

/-- The hypotheses are met by conditions with groups, strings and BETWEEN. -/
example : AndSafe (lit "t.id IN ($1, $2)") ∧ AndSafe (lit "(a = 1 OR b = 2)") ∧ AndSafe (lit "x between 1 and 2") ∧
    AndSafe (lit "s = 'a OR (b'") ∧ ¬ AndSafe (lit "a or b") ∧ ¬ AndSafe (lit "f(a") ∧
    wordsOf (lit "a IN (1, 2) OR b = 'x y'") =
      [lit "a", lit "IN", lit "(1, 2)", lit "OR", lit "b", lit "=", lit "'x y'"] := by
  have h : ∀ t : Str, (closedFrom false 0 t && betweenClosed false (wordsOf t) && (wordsOf t).all (fun w => !isKeyword "OR" w)
      && (t.head?.any fun b => decide (0x20 < b ∧ b < 0x7F)) && (t.getLast?.any fun b => decide (0x20 < b ∧ b < 0x7F))) = true →
      AndSafe t := by
    intro t h
    simp only [Bool.and_eq_true, List.all_eq_true, Bool.not_eq_true', Option.any_eq_true, decide_eq_true_eq] at h
    obtain ⟨⟨⟨⟨h1, h2⟩, h3⟩, ⟨b, h4⟩⟩, ⟨c, h5⟩⟩ := h
    exact ⟨h1, h2, h3, ⟨b, h4⟩, ⟨c, h5⟩⟩
  exact ⟨h _ (by decide +kernel), h _ (by decide +kernel), h _ (by decide +kernel), h _ (by decide +kernel),
    fun h => absurd (h.noOr (lit "or") (by decide +kernel)) (by decide), fun h => absurd h.closed (by decide), by decide +kernel⟩

/-- Groups, negations and precedence. -/
example : holds (fun ws => ws == [lit "a"]) 3 (lit "NOT (b OR c AND a) AND a") = true ∧
    holds (fun ws => ws == [lit "a"]) 3 (lit "NOT (b OR a) AND a") = false := by decide +kernel

end Sqlf.Props
