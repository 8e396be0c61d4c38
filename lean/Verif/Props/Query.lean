import Verif.Proofs.Query
import Verif.Proofs.SameCalls
/-!
# Properties of the queries of a query builder (C53, C62, C66, C68, C71, C75)
-/

namespace Sqlf.Props

open Spec

theorem lists_rootCtx (L : GoLib) : ListsWork L rootCtx :=
  ⟨⟨rootCtx, newContext_eq L, rfl⟩, ⟨rootCtx, newContext_eq L, rfl⟩⟩

/-- A successful `BuildQuery` of a query builder. -/
theorem returned {L : GoLib} {cs : List Call} {b : QB} (hm : Made L cs b) {heap : List QB} {r : Nat}
    (hr : heap[r]? = some b) {style : Style} {q : Str} {as : List Val}
    (h : Returns L (.qb r) style heap (.ok (q, as))) :
    ∃ dep s', Built L rootCtx cs b dep r (St.init style heap) q s' ∧ as = s'.store.args := by
  obtain ⟨⟨o, s'⟩, h1, h2⟩ := returns_iff_buildsTo.1 h
  cases o with
  | ok t =>
    simp only [queryOut, Out.ok.injEq, Prod.mk.injEq] at h2
    obtain ⟨rfl, rfl⟩ := h2
    obtain ⟨dep, hb⟩ := query_ok (lists_rootCtx L) hr hm h1
    exact ⟨dep, s', hb, rfl⟩
  | err e => simp [queryOut] at h2
  | panic p => simp [queryOut] at h2
  | oof => simp [queryOut] at h2

/-- A query with all clauses. -/
def fullCalls : List Call :=
  [.offset 20, .limit 10, .union [.frag (.F (lit "SELECT 2"))],
   .orderBy (tableColumn (lit "u") (lit "id")) 3,
   .with_ (lit "c") (.frag (.F (lit "SELECT 1"))) [],
   .where2 (tableColumn (lit "u") (lit "age")) (lit " > ") (.int 64 18),
   .leftJoinOptional ⟨lit "c", []⟩ (some (.Fa (lit "c.id = ?") [.int 64 7])),
   .from_ ⟨lit "users", lit "u"⟩,
   .whereIn (tableColumn (lit "u") (lit "group")) (.slice 9 [.int 64 1, .int 64 2]),
   .groupBy [tableColumn (lit "u") (lit "id")],
   .select [tableColumn (lit "u") (lit "id"), tableColumn (lit "u") (lit "name")]]

def fullQB : QB := match runCalls QB.new fullCalls with | .ok b => b | _ => QB.new

theorem fullQB_made (L : GoLib) : Made L fullCalls fullQB := made_of_calls (by rfl)

theorem fullQB_returns (L : GoLib) : Returns L (.qb 0) question [fullQB] (.ok (lit ("With c AS (SELECT 1) " ++
    "SELECT u.id, u.name FROM users AS u LEFT JOIN c ON c.id = ? WHERE u.age > ? AND u.group IN (?, ?) " ++
    "GROUP BY u.id ORDER BY u.id DESC LIMIT 10 OFFSET 20 UNION (SELECT 2)"),
    [.int 64 7, .int 64 18, .int 64 1, .int 64 2])) :=
  returns_of_buildQuery (n := 200) (by kernel_rfl) (by simp)

/-! ## C53 -/

/-- **C53** A query builder made by calls `cs` (with any builds in between), if it builds, gives a
query whose parts are With, SELECT, FROM, WHERE, GROUP BY, ORDER BY, LIMIT, OFFSET and UNION, in
this order, empty ones left out (`Parts.text`).  Each part is built from what the calls ask for in
that clause (`QueryBuilt`). -/
theorem C53_clauses_in_order (L : GoLib) (cs : List Call) (b : QB) (hm : Made L cs b) (heap : List QB) (r : Nat)
    (hr : heap[r]? = some b) (style : Style) (q : Str) (as : List Val)
    (h : Returns L (.qb r) style heap (.ok (q, as))) :
    ∃ ctx ctes rows touches p s', newContext L = some ctx ∧
      QueryBuilt L ctx cs ctes rows touches (St.init style heap) p s' ∧ q = p.text ∧ as = s'.store.args ∧
      ctes.Sublist (declaredBy cs) ∧ rows.Sublist b.tableList ∧
      (∀ t ∈ touches, OrderTouch (distinctIn cs) (orderedBy cs) t) := by
  obtain ⟨dep, s', ⟨_, _, ⟨touches, p, mid, post, h1, h2, _, h4, _⟩, _⟩, rfl⟩ := returned hm hr h
  exact ⟨rootCtx, _, _, touches, p, s', newContext_eq L, h1, h2, rfl, List.filter_sublist, List.filter_sublist, h4⟩

/-- **C53** The same for a query builder inside other builders, in any context in which `#join` and
`#fragment` have not been replaced. -/
theorem C53_clauses_in_order_in_context (L : GoLib) (ctx : Ctx) (hj : BuiltIn L ctx (lit "join"))
    (hf : BuiltIn L ctx (lit "fragment")) (cs : List Call) (b : QB) (hm : Made L cs b) (r : Nat) (s s' : St)
    (hr : s.heap[r]? = some b) (q : Str) (h : BuildsTo L ctx (.qb r) s (.ok q, s')) :
    ∃ ctes rows touches p, QueryBuilt L ctx cs ctes rows touches s p s' ∧ q = p.text ∧
      ctes.Sublist (declaredBy cs) ∧ rows.Sublist b.tableList ∧
      (∀ t ∈ touches, OrderTouch (distinctIn cs) (orderedBy cs) t) := by
  obtain ⟨dep, ⟨_, _, ⟨touches, p, mid, post, h1, h2, _, h4, _⟩, _⟩⟩ := query_ok ⟨hj, hf⟩ hr hm h
  exact ⟨_, _, touches, p, h1, h2, List.filter_sublist, List.filter_sublist, h4⟩

/-- **C53** The order of calls for different clauses does not matter: two sequences of calls that
ask for the same in every clause make the same query builder. -/
theorem C53_order_of_calls (L : GoLib) (cs cs' : List Call) (h : SameRequests cs cs') (b b' : QB)
    (hb : runCalls QB.new cs = .ok b) (hb' : runCalls QB.new cs' = .ok b') :
    b' = b ∧ ∀ (c : Builder) (style : Style) (heap : List QB) (r : Nat) (o : Out (Str × List Val)),
      Returns L c style (heap.set r b') o ↔ Returns L c style (heap.set r b) o := by
  have := sameRequests_calls h hb hb'
  subst this
  exact ⟨rfl, fun _ _ _ _ _ => Iff.rfl⟩

example (L : GoLib) : Made L fullCalls fullQB ∧ [fullQB][0]? = some fullQB ∧
    (∃ o, Returns L (.qb 0) question [fullQB] (.ok o)) ∧
    SameRequests fullCalls [.with_ (lit "c") (.frag (.F (lit "SELECT 1"))) [],
      .select [tableColumn (lit "u") (lit "id")],
      .select [tableColumn (lit "u") (lit "id"), tableColumn (lit "u") (lit "name")],
      .leftJoinOptional ⟨lit "c", []⟩ (some (.Fa (lit "c.id = ?") [.int 64 7])),
      .from_ ⟨lit "users", lit "u"⟩,
      .where2 (tableColumn (lit "u") (lit "age")) (lit " > ") (.int 64 18),
      .whereIn (tableColumn (lit "u") (lit "group")) (.slice 9 [.int 64 1, .int 64 2]),
      .groupBy [tableColumn (lit "u") (lit "id")],
      .orderBy (tableColumn (lit "u") (lit "id")) 3,
      .limit 5, .limit 10, .offset 20, .limit (-1), .union [.frag (.F (lit "SELECT 2"))]] :=
  ⟨fullQB_made L, rfl, ⟨_, fullQB_returns L⟩, by constructor <;> rfl⟩

/-! ## C66 -/

def limitArg : Call → Option Int
  | .limit n => some n
  | _ => none

def offsetArg : Call → Option Int
  | .offset n => some n
  | _ => none

theorem limitOf_eq (cs : List Call) : limitOf cs = ((cs.filterMap limitArg).filter (· > 0)).getLast?.getD 0 := by
  have pos : ∀ cs, (limitOf cs > 0 → (cs.filterMap limitArg).filter (· > 0) ≠ []) ∧
      ((cs.filterMap limitArg).filter (· > 0) ≠ [] → limitOf cs > 0) := by
    intro cs
    induction cs with
    | nil => simp [limitOf]
    | cons c cs ih =>
      cases c with
      | limit n =>
        simp only [limitOf, limitArg, List.filterMap_cons]
        by_cases h : limitOf cs > 0
        · rw [if_pos h]
          by_cases hn : n > 0 <;> simp [hn, h, ih.1 h]
        · rw [if_neg h]
          have : (cs.filterMap limitArg).filter (· > 0) = [] := Classical.byContradiction fun h1 => h (ih.2 h1)
          by_cases hn : n > 0
          · simp [hn]
          · simp [hn, this]
      | _ => simpa [limitOf, limitArg] using ih
  induction cs with
  | nil => rfl
  | cons c cs ih =>
    cases c with
    | limit n =>
      simp only [limitOf, limitArg, List.filterMap_cons]
      by_cases h : limitOf cs > 0
      · rw [if_pos h, ih]
        obtain ⟨hd, tl, htl⟩ := List.exists_cons_of_ne_nil ((pos cs).1 h)
        by_cases hn : n > 0
        · rw [List.filter_cons_of_pos (by simpa using hn), htl]; simp
        · rw [List.filter_cons_of_neg (by simpa using hn)]
      · rw [if_neg h]
        have : (cs.filterMap limitArg).filter (· > 0) = [] := Classical.byContradiction fun h1 => h ((pos cs).2 h1)
        by_cases hn : n > 0
        · rw [if_pos hn, List.filter_cons_of_pos (by simpa using hn), this]; rfl
        · rw [if_neg hn, List.filter_cons_of_neg (by simpa using hn), this]; rfl
    | _ => exact ih

theorem offsetOf_eq (cs : List Call) : offsetOf cs = ((cs.filterMap offsetArg).filter (· > 0)).getLast?.getD 0 := by
  have key : ∀ cs : List Call, ∃ cs' : List Call, limitOf cs' = offsetOf cs ∧
      cs'.filterMap limitArg = cs.filterMap offsetArg := by
    intro cs
    induction cs with
    | nil => exact ⟨[], rfl, rfl⟩
    | cons c cs ih =>
      obtain ⟨cs', h1, h2⟩ := ih
      cases c with
      | offset n => exact ⟨.limit n :: cs', by simp [limitOf, offsetOf, h1], by simp [limitArg, offsetArg, h2]⟩
      | _ => exact ⟨cs', h1, h2⟩
  obtain ⟨cs', h1, h2⟩ := key cs
  rw [← h1, limitOf_eq, h2]

/-- **C66** `LIMIT n` and `OFFSET n` are in the query exactly if a positive value was set; `n` is the
last positive value. -/
theorem C66_limit_and_offset (L : GoLib) (cs : List Call) (b : QB) (hm : Made L cs b) (heap : List QB) (r : Nat)
    (hr : heap[r]? = some b) (style : Style) (q : Str) (as : List Val)
    (h : Returns L (.qb r) style heap (.ok (q, as))) (limits offsets : List Int)
    (hl : limits = (cs.filterMap limitArg).filter (· > 0)) (ho : offsets = (cs.filterMap offsetArg).filter (· > 0)) :
    ∃ ctx ctes rows touches p s', newContext L = some ctx ∧
      QueryBuilt L ctx cs ctes rows touches (St.init style heap) p s' ∧ q = p.text ∧
      p.clauses = { p with limit := 0, offset := 0 }.clauses
        ++ (match limits.getLast? with | some n => [lit "LIMIT " ++ itoa n] | none => [])
        ++ (match offsets.getLast? with | some n => [lit "OFFSET " ++ itoa n] | none => []) := by
  obtain ⟨ctx, ctes, rows, touches, p, s', h1, h2, h3, -⟩ := C53_clauses_in_order L cs b hm heap r hr style q as h
  refine ⟨ctx, ctes, rows, touches, p, s', h1, h2, h3, ?_⟩
  have e1 : p.limit = limits.getLast?.getD 0 := by cases h2; rw [hl]; exact limitOf_eq cs
  have e2 : p.offset = offsets.getLast?.getD 0 := by cases h2; rw [ho]; exact offsetOf_eq cs
  have p1 : ∀ n, limits.getLast? = some n → n > 0 := by
    intro n hn
    have := List.mem_of_getLast? hn
    rw [hl, List.mem_filter] at this
    simpa using this.2
  have p2 : ∀ n, offsets.getLast? = some n → n > 0 := by
    intro n hn
    have := List.mem_of_getLast? hn
    rw [ho, List.mem_filter] at this
    simpa using this.2
  have c1 : (if p.limit > 0 then [lit "LIMIT " ++ itoa p.limit] else [])
      = (match limits.getLast? with | some n => [lit "LIMIT " ++ itoa n] | none => []) := by
    rw [e1]
    cases hx : limits.getLast? with
    | none => rfl
    | some n => exact if_pos (p1 n hx)
  have c2 : (if p.offset > 0 then [lit "OFFSET " ++ itoa p.offset] else [])
      = (match offsets.getLast? with | some n => [lit "OFFSET " ++ itoa n] | none => []) := by
    rw [e2]
    cases hx : offsets.getLast? with
    | none => rfl
    | some n => exact if_pos (p2 n hx)
  rw [← c1, ← c2]
  simp [Parts.clauses, Parts.selectText]

example (L : GoLib) : Made L fullCalls fullQB ∧ [fullQB][0]? = some fullQB ∧
    (∃ o, Returns L (.qb 0) question [fullQB] (.ok o)) ∧
    [10] = (fullCalls.filterMap limitArg).filter (· > 0) ∧ [20] = (fullCalls.filterMap offsetArg).filter (· > 0) :=
  ⟨fullQB_made L, rfl, ⟨_, fullQB_returns L⟩, by decide, by decide⟩

/-! ## C68 -/

def unionArg : Call → Option (List Builder)
  | .union bs => some bs
  | _ => none

theorem unitedWith_eq (cs : List Call) : unitedWith cs = (cs.filterMap unionArg).flatten := by
  induction cs with
  | nil => rfl
  | cons c cs ih => cases c <;> simp [unitedWith, unionArg, ih, List.filterMap_cons]

/-- **C68** All builders given to `Union`, in the order of the calls, are built, and the query ends
with `UNION (q1) UNION (q2) …` for the non-empty ones `q1, q2, …`.  Without `Union`, there is no
such part. -/
theorem C68_unions_in_order (L : GoLib) (cs : List Call) (b : QB) (hm : Made L cs b) (heap : List QB) (r : Nat)
    (hr : heap[r]? = some b) (style : Style) (q : Str) (as : List Val)
    (h : Returns L (.qb r) style heap (.ok (q, as))) (us : List Builder)
    (hu : us = (cs.filterMap unionArg).flatten) :
    ∃ ctx ctes rows touches p s', newContext L = some ctx ∧
      QueryBuilt L ctx cs ctes rows touches (St.init style heap) p s' ∧ as = s'.store.args ∧
      (us = [] → q = { p with unions := none }.text) ∧
      (us ≠ [] → ∃ ts s1 s2, BuildsAll L ctx us s1 ts s2 ∧ s'.store = s2.store ∧
        q = trimSpace ({ p with unions := none }.text
          ++ lit " UNION (" ++ strJoin (lit ") UNION (") (ts.filter (· ≠ [])) ++ lit ")")) := by
  obtain ⟨ctx, ctes, rows, touches, p, s', h1, h2, h3, h4, -⟩ := C53_clauses_in_order L cs b hm heap r hr style q as h
  refine ⟨ctx, ctes, rows, touches, p, s', h1, h2, h4, ?_, ?_⟩
  · intro h0
    rw [hu, ← unitedWith_eq] at h0
    cases h2
    rw [h3, if_pos h0]
  · intro h0
    rw [hu, ← unitedWith_eq] at h0
    cases h2 with
    | mk hctes hfrom hwhere hgroup h4 horder h5 hselect htouch hunion h8 =>
      refine ⟨_, _, _, by rw [hu, ← unitedWith_eq]; exact hunion, h8, ?_⟩
      rw [h3, if_neg h0]
      simp only [Parts.text, unionText, Parts.clauses, Parts.selectText, List.append_assoc]
      rfl

example (L : GoLib) : Made L fullCalls fullQB ∧ [fullQB][0]? = some fullQB ∧
    (∃ o, Returns L (.qb 0) question [fullQB] (.ok o)) ∧
    [.frag (.F (lit "SELECT 2"))] = (fullCalls.filterMap unionArg).flatten :=
  ⟨fullQB_made L, rfl, ⟨_, fullQB_returns L⟩, rfl⟩

/-! ## C71 -/

/-- The condition with the invalid reference `#arg5` vanishes: the query is not restricted. -/
theorem C71_counterexample (L : GoLib) :
    ∃ cs b, runCalls QB.new cs = .ok b ∧ conditionsOf cs = [.F (lit "id = #arg5")] ∧
      Returns L (.qb 0) question [b] (.ok (lit "SELECT 1 FROM users", [])) :=
  ⟨[.select [exprColumn (some (.F (lit "1")))], .from_ ⟨lit "users", []⟩, .where_ (some (.F (lit "id = #arg5")))], _, rfl, rfl,
    returns_of_buildQuery (n := 200) (by kernel_rfl) (by simp)⟩

theorem buildsList_all {L : GoLib} {ctx : Ctx} {bs : List Builder} {s s' : St} {ts : List Str}
    (h : BuildsList L ctx bs s ts s')
    (hn : ∀ b, bs.getLast? = some b → ∀ s o s', BuildsTo L ctx b s (o, s') → ¬ IndexFailure o) :
    BuildsAll L ctx bs s ts s' := by
  induction h with
  | nil => exact .nil _
  | @cons b bs _ _ _ _ _ h hs ih =>
    refine .cons h (ih fun c hc => hn c ?_)
    rw [List.getLast?_cons, hc]; rfl
  | lost h ho => exact absurd ho (hn _ rfl _ _ _ h)

theorem plain_never_fails (L : GoLib) (ctx : Ctx) (s s' : St) (o : Out Str)
    (h : BuildsTo L ctx (.frag (.F (lit "1 = 1"))) s (o, s')) : ¬ IndexFailure o := by
  have : BuildsTo L ctx (.frag (.F (lit "1 = 1"))) s (.ok (lit "1 = 1"), s) :=
    buildsTo_of_run (n := 10) (by kernel_rfl) (by simp)
  have := buildsTo_unique h this
  rw [(Prod.mk.inj this).1]
  exact id

/-- **C71** (partial: the last condition must not fail with `ErrInvalidIndex`, see
`C71_counterexample`)  All conditions, in call order, are built, and the WHERE clause consists of
their texts, joined by AND. -/
theorem C71_all_conditions_partial (L : GoLib) (cs : List Call) (b : QB) (hm : Made L cs b) (heap : List QB) (r : Nat)
    (hr : heap[r]? = some b) (style : Style) (q : Str) (as : List Val)
    (h : Returns L (.qb r) style heap (.ok (q, as)))
    (hn : ∀ f, (conditionsOf cs).getLast? = some f → ∀ ctx s o s', BuildsTo L ctx (.frag f) s (o, s') → ¬ IndexFailure o) :
    ∃ ctx ctes rows touches p s' s1 s2, newContext L = some ctx ∧
      QueryBuilt L ctx cs ctes rows touches (St.init style heap) p s' ∧ q = p.text ∧
      BuildsAll L ctx ((conditionsOf cs).map .frag) s1 p.where_ s2 := by
  obtain ⟨ctx, ctes, rows, touches, p, s', h1, h2, h3, -⟩ := C53_clauses_in_order L cs b hm heap r hr style q as h
  have h2' := h2
  cases h2 with
  | @mk s1 s2 s3 s4 s4' s5 s5' s6 s7 s8 s9 qs ts ws gs os ss xs us hctes hfrom hwhere =>
    refine ⟨ctx, ctes, rows, touches, _, s', _, _, h1, h2', h3, buildsList_all hwhere ?_⟩
    · intro c hc
      rw [List.getLast?_map] at hc
      cases hx : (conditionsOf cs).getLast? with
      | none => rw [hx] at hc; cases hc
      | some f =>
        rw [hx] at hc
        cases hc
        exact hn f hx ctx

example (L : GoLib) : ∃ cs b, Made L cs b ∧ [b][0]? = some b ∧ (conditionsOf cs).length = 2 ∧
    Returns L (.qb 0) question [b] (.ok (lit "SELECT 1 FROM users WHERE a = ? AND 1 = 1", [.int 64 5])) ∧
    (∀ f, (conditionsOf cs).getLast? = some f → ∀ ctx s o s', BuildsTo L ctx (.frag f) s (o, s') → ¬ IndexFailure o) :=
  ⟨[.select [exprColumn (some (.F (lit "1")))], .from_ ⟨lit "users", []⟩, .where_ (some (.Fa (lit "a = ?") [.int 64 5])),
    .where_ (some (.F (lit "1 = 1")))], _, made_of_calls rfl, rfl, rfl,
    returns_of_buildQuery (n := 200) (by kernel_rfl) (by simp), by
      intro f hf ctx s o s' hb
      cases hf
      exact plain_never_fails L ctx s s' o hb⟩

theorem buildsList_last {L : GoLib} {ctx : Ctx} {bs : List Builder} {s s' : St} {ts : List Str}
    (h : BuildsList L ctx bs s ts s') {fs : List Fragment} (hbs : fs.map Builder.frag = bs) :
    BuildsAll L ctx (fs.map .frag) s ts s' ∨ ∃ fs' f s3 o, fs = fs' ++ [f] ∧
      BuildsAll L ctx (fs'.map .frag) s ts s3 ∧ BuildsTo L ctx (.frag f) s3 (o, s') ∧ IndexFailure o := by
  induction h generalizing fs with
  | nil => cases fs <;> simp at hbs; exact .inl (.nil _)
  | cons h hs ih =>
    cases fs with
    | nil => cases hbs
    | cons f fs =>
      simp only [List.map_cons, List.cons.injEq] at hbs
      obtain ⟨rfl, hbs⟩ := hbs
      rcases ih hbs with h4 | ⟨fs', f', s5, o, rfl, h5, h6⟩
      · exact .inl (.cons h h4)
      · exact .inr ⟨f :: fs', f', s5, o, rfl, .cons h h5, h6⟩
  | lost h ho =>
    cases fs with
    | nil => cases hbs
    | cons f fs =>
      simp only [List.map_cons, List.cons.injEq, List.map_eq_nil_iff] at hbs
      obtain ⟨rfl, rfl⟩ := hbs
      exact .inr ⟨[], f, _, _, rfl, .nil _, h, ho⟩

/-- **C71** Whatever the conditions: if the query builds, all conditions are built in call order, and the WHERE clause
consists of their texts, joined by AND; or the last of them failed with `ErrInvalidIndex`, and it consists of the
texts of the others. -/
theorem C71_only_the_last_condition (L : GoLib) (cs : List Call) (b : QB) (hm : Made L cs b) (heap : List QB) (r : Nat)
    (hr : heap[r]? = some b) (style : Style) (q : Str) (as : List Val)
    (h : Returns L (.qb r) style heap (.ok (q, as))) :
    ∃ ctx ctes rows touches p s' s1 s2, newContext L = some ctx ∧
      QueryBuilt L ctx cs ctes rows touches (St.init style heap) p s' ∧ q = p.text ∧
      (BuildsAll L ctx ((conditionsOf cs).map .frag) s1 p.where_ s2 ∨
        ∃ fs f s3 o, conditionsOf cs = fs ++ [f] ∧ BuildsAll L ctx (fs.map .frag) s1 p.where_ s3 ∧
          BuildsTo L ctx (.frag f) s3 (o, s2) ∧ IndexFailure o) := by
  obtain ⟨ctx, ctes, rows, touches, p, s', h1, h2, h3, -⟩ := C53_clauses_in_order L cs b hm heap r hr style q as h
  have h2' := h2
  cases h2 with
  | @mk s1 s2 s3 s4 s4' s5 s5' s6 s7 s8 s9 qs ts ws gs os ss xs us hctes hfrom hwhere =>
    refine ⟨ctx, ctes, rows, touches, _, s', s2, s3, h1, h2', h3, ?_⟩
    exact buildsList_last hwhere rfl

/-- Both cases occur: see the example above and `C71_counterexample`. -/
example (L : GoLib) : ∃ cs b, Made L cs b ∧ conditionsOf cs = [.F (lit "1 = 1"), .F (lit "id = #arg5")] ∧
    Returns L (.qb 0) question [b] (.ok (lit "SELECT 1 FROM users WHERE 1 = 1", [])) :=
  ⟨[.select [exprColumn (some (.F (lit "1")))], .from_ ⟨lit "users", []⟩, .where_ (some (.F (lit "1 = 1"))),
    .where_ (some (.F (lit "id = #arg5")))], _, made_of_calls rfl, rfl,
    returns_of_buildQuery (n := 200) (by kernel_rfl) (by simp)⟩

/-! ## C75 -/

def selectArg : Call → Option (List Builder)
  | .select columns => some columns
  | _ => none

def groupArg : Call → Option (List Builder)
  | .groupBy columns => some columns
  | _ => none

def orderArg : Call → Option OrderItem
  | .orderBy column order => some ⟨column, order⟩
  | _ => none

theorem selectedBy_eq (cs : List Call) :
    selectedBy cs = ((cs.filterMap selectArg).filter (!·.isEmpty)).getLast?.getD [] := by
  induction cs with
  | nil => rfl
  | cons c cs ih =>
    cases c with
    | select xs =>
      simp only [selectedBy, selectArg, List.filterMap_cons]
      by_cases h : selectedBy cs = []
      · rw [if_pos h]
        have h0 : (cs.filterMap selectArg).filter (!·.isEmpty) = [] := by
          rw [ih] at h
          cases hl : ((cs.filterMap selectArg).filter (!·.isEmpty)).getLast? with
          | none => exact List.getLast?_eq_none_iff.1 hl
          | some x =>
            rw [hl] at h
            have := (List.mem_filter.1 (List.mem_of_getLast? hl)).2
            simp only [Option.getD_some] at h
            simp [h] at this
        cases xs with
        | nil => rw [List.filter_cons_of_neg (by simp), h0]; rfl
        | cons x xs => rw [List.filter_cons_of_pos (by simp), h0]; rfl
      · rw [if_neg h, ih]
        have : (cs.filterMap selectArg).filter (!·.isEmpty) ≠ [] := by
          intro h0; rw [ih, h0] at h; exact h rfl
        obtain ⟨hd, tl, htl⟩ := List.exists_cons_of_ne_nil this
        cases xs with
        | nil => rw [List.filter_cons_of_neg (by simp)]
        | cons x xs => rw [List.filter_cons_of_pos (by simp), htl]; simp
    | _ => exact ih

theorem groupedBy_eq (cs : List Call) : groupedBy cs = (cs.filterMap groupArg).flatten := by
  induction cs with
  | nil => rfl
  | cons c cs ih => cases c <;> simp [groupedBy, groupArg, ih, List.filterMap_cons]

theorem orderedBy_eq (cs : List Call) : orderedBy cs = cs.filterMap orderArg := by
  induction cs with
  | nil => rfl
  | cons c cs ih => cases c <;> simp [orderedBy, orderArg, ih, List.filterMap_cons]

/-- **C75** The SELECT clause is built from the columns of the last non-empty `Select`, the GROUP BY,
ORDER BY and WHERE clauses from everything given to `GroupBy`, `OrderBy` and `Where…`. -/
theorem C75_select_replaces_others_add (L : GoLib) (cs : List Call) (b : QB) (hm : Made L cs b) (heap : List QB) (r : Nat)
    (hr : heap[r]? = some b) (style : Style) (q : Str) (as : List Val)
    (h : Returns L (.qb r) style heap (.ok (q, as))) :
    ∃ ctx ctes rows touches p s', newContext L = some ctx ∧
      QueryBuilt L ctx cs ctes rows touches (St.init style heap) p s' ∧ q = p.text ∧
      (∃ s1 s2, BuildsList L ctx (((cs.filterMap selectArg).filter (!·.isEmpty)).getLast?.getD []) s1 p.select s2) ∧
      (∃ s1 s2, BuildsList L ctx (cs.filterMap groupArg).flatten s1 p.groupBy s2) ∧
      (∃ s1 s2, BuildsList L ctx ((cs.flatMap conditionOf).map .frag) s1 p.where_ s2) ∧
      (∃ s1 s2, BuildsList L ctx (orderBuilders (distinctIn cs) 1 (cs.filterMap orderArg)) s1 p.orderBy s2) := by
  obtain ⟨ctx, ctes, rows, touches, p, s', h1, h2, h3, -⟩ := C53_clauses_in_order L cs b hm heap r hr style q as h
  refine ⟨ctx, ctes, rows, touches, p, s', h1, h2, h3, ?_⟩
  rw [← selectedBy_eq, ← groupedBy_eq, ← orderedBy_eq]
  cases h2 with
  | mk hctes hfrom hwhere hgroup h4 horder h5 hselect htouch hunion h8 =>
    exact ⟨⟨_, _, hselect⟩, ⟨_, _, hgroup⟩, ⟨_, _, hwhere⟩, ⟨_, _, horder⟩⟩

/-- **C75** A `Select` that is followed by one with columns has no effect, and neither has one without
columns. -/
theorem C75_replaced_select (cs1 cs2 : List Call) (old : List Builder) (b b' : QB)
    (h : old = [] ∨ ∃ new, new ≠ [] ∧ .select new ∈ cs2)
    (hb : runCalls QB.new (cs1 ++ .select old :: cs2) = .ok b) (hb' : runCalls QB.new (cs1 ++ cs2) = .ok b') :
    b = b' := by
  have hs : ∀ cs1, selectedBy (cs1 ++ .select old :: cs2) = selectedBy (cs1 ++ cs2) := by
    intro cs1
    rw [selectedBy_eq, selectedBy_eq]
    simp only [List.filterMap_append, List.filterMap_cons, selectArg, List.filter_append]
    rcases h with rfl | ⟨new, hn, hm⟩
    · rw [List.filter_cons_of_neg (by simp)]
    · have hne : (cs2.filterMap selectArg).filter (!·.isEmpty) ≠ [] := by
        refine List.ne_nil_of_mem (a := new) (List.mem_filter.2 ⟨List.mem_filterMap.2 ⟨_, hm, rfl⟩, by simpa using hn⟩)
      rw [List.getLast?_append, List.getLast?_append]
      cases old with
      | nil => rw [List.filter_cons_of_neg (by simp)]
      | cons x xs =>
        rw [List.filter_cons_of_pos (by simp), List.getLast?_cons]
        cases hl : ((cs2.filterMap selectArg).filter (!·.isEmpty)).getLast? with
        | none => exact absurd (List.getLast?_eq_none_iff.1 hl) hne
        | some x => rfl
  refine sameRequests_calls ?_ hb' hb
  constructor
  · clear hs h hb hb'
    induction cs1 with
    | nil => rfl
    | cons c cs ih => rw [List.cons_append, List.cons_append, declaredBy_cons, declaredBy_cons c (cs ++ cs2), ih]
  · exact hs cs1
  · simp [conditionsOf, conditionOf]
  · simp [orderedBy_eq, orderArg, List.filterMap_cons]
  · simp [groupedBy_eq, groupArg, List.filterMap_cons]
  · clear hs h hb hb'
    induction cs1 with
    | nil => rfl
    | cons c cs ih => rw [List.cons_append, List.cons_append, distinctIn_cons, distinctIn_cons c (cs ++ cs2), ih]
  · simp [limitOf_eq, limitArg, List.filterMap_cons]
  · simp [offsetOf_eq, offsetArg, List.filterMap_cons]
  · simp [unitedWith_eq, unionArg, List.filterMap_cons]
  · simp [isTableCall, joinOf]
  · clear hs h hb hb'
    induction cs1 with
    | nil => rfl
    | cons c cs ih => rw [List.cons_append, List.cons_append, debugIn_cons, debugIn_cons c (cs ++ cs2), ih]

example (L : GoLib) : Made L fullCalls fullQB ∧ [fullQB][0]? = some fullQB ∧
    (∃ o, Returns L (.qb 0) question [fullQB] (.ok o)) ∧
    (∃ new, new ≠ [] ∧ .select new ∈ fullCalls) ∧
    runCalls QB.new ([.limit 5] ++ .select [tableColumn (lit "x") (lit "y")] :: fullCalls) = .ok fullQB ∧
    runCalls QB.new ([.limit 5] ++ fullCalls) = .ok fullQB :=
  ⟨fullQB_made L, rfl, ⟨_, fullQB_returns L⟩, ⟨[tableColumn (lit "u") (lit "id"), tableColumn (lit "u") (lit "name")], by simp, by simp [fullCalls]⟩, rfl, rfl⟩

/-! ## C62 -/

/-- The first build ignores an invalid order. -/
theorem C62_counterexample (L : GoLib) :
    ∃ cs b, runCalls QB.new cs = .ok b ∧ orderedBy cs = [⟨tableColumn (lit "users") (lit "id"), 7⟩] ∧
      Returns L (.qb 0) question [b] (.ok (lit "SELECT 1 FROM users", [])) :=
  ⟨[.select [exprColumn (some (.F (lit "1")))], .from_ ⟨lit "users", []⟩, .orderBy (tableColumn (lit "users") (lit "id")) 7], _, rfl, rfl,
    returns_of_buildQuery (n := 200) (by kernel_rfl) (by simp)⟩

theorem errors_later {L : GoLib} {b b' : QB} (h : Later L b b') {e : Err} (hb : e ∈ b.errors) : e ∈ b'.errors := by
  induction h with
  | refl => exact hb
  | @call b1 b2 c _ hc ih =>
    have : runCalls b1 [c] = .ok b2 := by unfold runCalls; rw [hc]; rfl
    obtain ⟨t, ht⟩ := calls_errors this
    rw [← ht]
    exact List.mem_append_left _ ih
  | build _ hr hb' hr' ih =>
    obtain ⟨b2, h2, hg⟩ := hb'.grown _ _ hr
    rw [h2] at hr'
    cases hr'
    exact hg.errors.subset ih

theorem errors_build {L : GoLib} {ctx : Ctx} {r : Nat} {s : St} {b : QB} (hr : s.heap[r]? = some b) (hb : b.errors ≠ []) :
    BuildsTo L ctx (.qb r) s (.err (anyError b.errors), s) := by
  refine ⟨by simp, 1, fun n hn => ?_⟩
  obtain ⟨n, rfl⟩ := Nat.exists_eq_add_of_le hn
  rw [Nat.add_comm]
  show buildInternal L (run L n) n ctx r s = _
  unfold buildInternal
  have hg : getQB r s = (.ok b, s) := by
    unfold getQB
    rw [hr]
  exact (bind_of_ok hg).trans (congrFun (if_pos (by simpa using hb)) s)

/-- **C62** (partial: the first successful build ignores invalid orders, see `C62_counterexample`)
After a build with invalid orders was successful, every later build of the query builder fails,
whatever is called or built in between, and the error lists every one of these orders. -/
theorem C62_later_builds_fail_partial (L : GoLib) (ctx : Ctx) (hj : BuiltIn L ctx (lit "join"))
    (hf : BuiltIn L ctx (lit "fragment")) (cs : List Call) (b b1 b2 : QB) (hm : Made L cs b) (r : Nat) (s s' : St)
    (hr : s.heap[r]? = some b) (q : Str) (h : BuildsTo L ctx (.qb r) s (.ok q, s'))
    (hi : ∃ o ∈ orderedBy cs, orderText o.order = none)
    (h1 : s'.heap[r]? = some b1) (h2 : Later L b1 b2)
    (style : Style) (heap : List QB) (r' : Nat) (hr' : heap[r']? = some b2) :
    ∃ ms, Returns L (.qb r') style heap (.err (.collected (report ms))) ∧
      ∀ o ∈ orderedBy cs, orderText o.order = none → lit "invalid order: " ++ natDigits o.order ∈ ms := by
  obtain ⟨dep, hb⟩ := query_ok ⟨hj, hf⟩ hr hm h
  obtain ⟨b1', h3, h4⟩ := hb.errors
  rw [h1] at h3
  cases h3
  obtain ⟨o, ho, hn⟩ := hi
  have := errors_build (L := L) (ctx := rootCtx) (s := St.init style heap) (r := r') hr'
    (List.ne_nil_of_mem (errors_later h2 (h4 o ho hn)))
  rw [anyError_report] at this
  exact ⟨_, returns_iff_buildsTo.2 ⟨_, this, rfl⟩, fun o ho hn => List.mem_map.2 ⟨_, errors_later h2 (h4 o ho hn), rfl⟩⟩

example (L : GoLib) : ∃ cs b ctx s s' q b1, Made L cs b ∧ BuiltIn L ctx (lit "join") ∧ BuiltIn L ctx (lit "fragment") ∧
    s.heap[0]? = some b ∧ BuildsTo L ctx (.qb 0) s (.ok q, s') ∧ (∃ o ∈ orderedBy cs, orderText o.order = none) ∧
    s'.heap[0]? = some b1 ∧ Later L b1 (b1.setLimit 5) := by
  obtain ⟨cs, b, h1, h2, h3⟩ := C62_counterexample L
  obtain ⟨⟨o, s'⟩, h4, h5⟩ := returns_iff_buildsTo.1 h3
  cases o with
  | ok t =>
    obtain ⟨b1, h6, h7⟩ := h4.grown 0 b rfl
    exact ⟨cs, b, rootCtx, _, s', t, b1, made_of_calls h1, (lists_rootCtx L).join, (lists_rootCtx L).fragment, rfl, h4,
      ⟨_, by rw [h2]; exact List.mem_singleton.2 rfl, rfl⟩, h6, .call (c := .limit 5) (.refl b1) rfl⟩
  | err e => simp [queryOut] at h5
  | panic p => simp [queryOut] at h5
  | oof => simp [queryOut] at h5

/-- **C69** The same with any builds between the calls: every build fails, and the error lists all calls with an empty
table name in their order.  (Besides, only invalid orders are listed, see C62.) -/
theorem C69_errors_are_sticky_with_builds (L : GoLib) (cs : List Call) (b : QB) (hm : Made L cs b)
    (he : cs.filterMap complaint ≠ []) (style : Style) (heap : List QB) (r : Nat) (hr : heap[r]? = some b) :
    ∃ ms, Returns L (.qb r) style heap (.err (.collected (report ms))) ∧ (cs.filterMap complaint).Sublist ms ∧
      ∀ m ∈ ms, m ∈ cs.filterMap complaint ∨
        ∃ o ∈ orderedBy cs, orderText o.order = none ∧ m = lit "invalid order: " ++ natDigits o.order := by
  obtain ⟨b0, h0, hg⟩ := hm.base
  have h1 : b0.errors = (cs.filterMap complaint).map .builder := by rw [calls_complaints h0]; rfl
  have h2 : b0.errors.map errorText = cs.filterMap complaint := by
    rw [h1, List.map_map]
    exact List.map_id _
  have hne : b.errors ≠ [] := by
    intro h
    have := hg.errors
    rw [h, h1] at this
    exact he (List.map_eq_nil_iff.1 (List.sublist_nil.1 this))
  have h3 := errors_build (L := L) (ctx := rootCtx) (s := St.init style heap) (r := r) hr hne
  rw [anyError_report] at h3
  refine ⟨_, returns_iff_buildsTo.2 ⟨_, h3, rfl⟩, h2 ▸ hg.errors.map errorText, fun m hmem => ?_⟩
  obtain ⟨e, h4, rfl⟩ := List.mem_map.1 hmem
  rcases hg.newErrors e h4 with h5 | ⟨o, h5, h6, rfl⟩
  · exact .inl (h2 ▸ List.mem_map.2 ⟨e, h5, rfl⟩)
  · rw [(made_of_calls (L := L) h0).fields.orders] at h5
    exact .inr ⟨o, h5, h6, rfl⟩

/-- A build with an invalid order, and then a `From` without name. -/
example (L : GoLib) : ∃ cs b b1 b2 s s' q, Made L cs b ∧ BuildsTo L rootCtx (.qb 0) s (.ok q, s') ∧
    s.heap[0]? = some b ∧ s'.heap[0]? = some b1 ∧ Made L (cs ++ [Call.from_ ⟨[], []⟩]) b2 ∧
    b2.errors = b1.errors ++ [.builder (lit "from table is empty")] ∧
    (cs ++ [Call.from_ ⟨[], []⟩]).filterMap complaint = cs.filterMap complaint ++ [lit "from table is empty"] := by
  obtain ⟨cs, b, h1, h2, h3⟩ := C62_counterexample L
  obtain ⟨⟨o, s'⟩, h4, h5⟩ := returns_iff_buildsTo.1 h3
  cases o with
  | ok t =>
    obtain ⟨b1, h6, h7⟩ := h4.grown 0 b rfl
    exact ⟨cs, b, b1, _, _, s', t, made_of_calls h1, h4, rfl, h6,
      .call (c := .from_ ⟨[], []⟩) (.build (r := 0) (made_of_calls h1) rfl h4 h6) rfl, rfl, by
        rw [List.filterMap_append]; rfl⟩
  | err e => simp [queryOut] at h5
  | panic p => simp [queryOut] at h5
  | oof => simp [queryOut] at h5

end Sqlf.Props
