import Verif.Proofs.Grown
import Verif.Proofs.ListClause
import Verif.Proofs.Deps
/-!
# How a query builder builds its query
-/

namespace Sqlf

open Spec

/-! ## Loops -/

theorem collect_ok {L : GoLib} {ctx : Ctx} {α : Type} {keep : α → Bool} {bld : α → Builder}
    {post : α → Str → Option Str} {f : α → M (Option Str)}
    (hskip : ∀ a s, keep a = false → f a s = (.ok none, s))
    (hbuild : ∀ a s o s', keep a = true → f a s = (.ok o, s') →
      ∃ q, BuildsTo L ctx (bld a) s (.ok q, s') ∧ o = post a q)
    {l : List α} {s s' : St} {out : List Str} (h : collectM f l s = (.ok out, s')) :
    ∃ qs, BuildsAll L ctx ((l.filter keep).map bld) s qs s' ∧
      out = ((l.filter keep).zip qs).filterMap fun p => post p.1 p.2 := by
  induction l generalizing s out with
  | nil =>
    simp only [collectM, M.pure, Prod.mk.injEq, Out.ok.injEq] at h
    obtain ⟨rfl, rfl⟩ := h
    exact ⟨[], .nil _, rfl⟩
  | cons a l ih =>
    obtain ⟨o, s1, h1, h2⟩ := bind_ok h
    obtain ⟨l', s2, h3, h4⟩ := bind_ok h2
    simp only [M.pure, Prod.mk.injEq, Out.ok.injEq] at h4
    obtain ⟨rfl, rfl⟩ := h4
    obtain ⟨qs, h5, rfl⟩ := ih h3
    cases hk : keep a with
    | false =>
      rw [hskip a s hk] at h1
      simp only [Prod.mk.injEq, Out.ok.injEq] at h1
      obtain ⟨rfl, rfl⟩ := h1
      rw [List.filter_cons_of_neg (by simp [hk])]
      exact ⟨qs, h5, rfl⟩
    | true =>
      obtain ⟨q, h6, rfl⟩ := hbuild a s o s1 hk h1
      rw [List.filter_cons_of_pos hk]
      refine ⟨q :: qs, .cons h6 h5, ?_⟩
      simp only [List.zip_cons_cons, List.filterMap_cons]
      cases post a q <;> simp

theorem Spec.BuildsAll.length {L : GoLib} {ctx : Ctx} {bs : List Builder} {s s' : St} {ts : List Str}
    (h : BuildsAll L ctx bs s ts s') : ts.length = bs.length := by
  induction h with
  | nil => rfl
  | cons _ _ ih => simp [ih]

/-- The CTE is among the dependencies. -/
def cteKept (dep : Deps) (c : Cte) : Bool := (⟨c.name, []⟩ : TableAliased) ∈ dep

/-- The row is written. -/
def rowKept (distinct : Bool) (dep : Deps) (r : FromTable) : Bool :=
  ¬ (distinct = true ∧ r.optional = true ∧ r.names ∉ dep)

theorem buildCTEs_ok {L : GoLib} {n : Nat} {ctx : Ctx} {b : QB} {dep : Deps} {s s' : St} {t : Str}
    (h : buildCTEs (run L n) ctx b dep s = (.ok t, s')) :
    ∃ qs, BuildsAll L ctx ((b.ctes.filter (cteKept dep)).map (·.builder)) s qs s' ∧
      nonEmpty t = clause (lit "With") (strJoin (lit ", ")
        (((((b.ctes.filter (cteKept dep)).map (·.name)).zip qs).filter (·.2 ≠ [])).map cteText)) := by
  obtain ⟨cl, s1, h1, h2⟩ := bind_ok h
  simp only [M.pure, Prod.mk.injEq, Out.ok.injEq] at h2
  obtain ⟨rfl, rfl⟩ := h2
  obtain ⟨qs, h3, rfl⟩ := collect_ok (L := L) (ctx := ctx) (keep := cteKept dep) (bld := (·.builder))
    (post := fun c q => if q = [] then none else some (c.name ++ lit " AS (" ++ q ++ lit ")"))
    (by
      intro c s hk
      have : (⟨c.name, []⟩ : TableAliased) ∉ dep := by simpa [cteKept] using hk
      exact congrFun (if_pos this) s)
    (by
      intro c s o s' hk h
      have : ¬ (⟨c.name, []⟩ : TableAliased) ∉ dep := by simpa [cteKept] using hk
      have h := (congrFun (if_neg this) s).symm.trans h
      obtain ⟨q, s1, h1, h2⟩ := bind_ok h
      simp only [M.pure, Prod.mk.injEq, Out.ok.injEq] at h2
      obtain ⟨rfl, rfl⟩ := h2
      exact ⟨q, evals_of_run (wrapErr_ok.1 h1) (by simp), rfl⟩) h1
  refine ⟨qs, h3, ?_⟩
  have h4 : (((b.ctes.filter (cteKept dep)).zip qs).filterMap fun p => if p.2 = [] then none else
      some (p.1.name ++ lit " AS (" ++ p.2 ++ lit ")")) =
      ((((b.ctes.filter (cteKept dep)).map (·.name)).zip qs).filter (·.2 ≠ [])).map cteText := by
    clear h3 h1 h
    generalize b.ctes.filter (cteKept dep) = cs
    induction cs generalizing qs with
    | nil => simp
    | cons c cs ih =>
      cases qs with
      | nil => simp
      | cons q qs =>
        have := ih qs
        by_cases hq : q = []
        · simpa [hq] using this
        · simpa [hq, cteText] using this
  rw [h4]
  generalize ((((b.ctes.filter (cteKept dep)).map (·.name)).zip qs).filter (·.2 ≠ [])) = ps
  unfold clause nonEmpty
  cases ps with
  | nil => simp [strJoin]
  | cons p ps =>
    have h5 : strJoin (lit ", ") (List.map cteText (p :: ps)) ≠ [] := by
      cases ps <;> simp [strJoin, cteText, lit]
    rw [if_neg h5]
    simp [lit]

theorem buildFrom_ok {L : GoLib} {n : Nat} {ctx : Ctx} {b : QB} {dep : Deps} {s s' : St} {t : Str}
    (h : buildFrom L (run L n) n ctx b dep s = (.ok t, s')) :
    ∃ ts, BuildsAll L ctx ((b.tableList.filter (rowKept b.distinct dep)).map rowBuilder) s ts s' ∧
      t = lit "FROM " ++ strJoin (lit " ") ts := by
  obtain ⟨cl, s1, h1, h2⟩ := bind_ok h
  simp only [M.pure, Prod.mk.injEq, Out.ok.injEq] at h2
  obtain ⟨rfl, rfl⟩ := h2
  obtain ⟨ts, h3, rfl⟩ := collect_ok (L := L) (ctx := ctx) (keep := rowKept b.distinct dep) (bld := rowBuilder)
    (post := fun _ q => some q)
    (by
      intro r s hk
      have : b.distinct = true ∧ r.optional = true ∧ r.names ∉ dep := by
        simpa [rowKept, -not_and, -and_imp] using hk
      exact congrFun (if_pos this) s)
    (by
      intro r s o s' hk h
      have : ¬ (b.distinct = true ∧ r.optional = true ∧ r.names ∉ dep) := by
        intro hc
        rw [rowKept, decide_eq_true_iff] at hk
        exact hk hc
      have h := (congrFun (if_neg this) s).symm.trans h
      obtain ⟨q, s1, h1, h2⟩ := bind_ok h
      simp only [M.pure, Prod.mk.injEq, Out.ok.injEq] at h2
      obtain ⟨rfl, rfl⟩ := h2
      refine ⟨q, ?_, rfl⟩
      have h3 := wrapErr_ok.1 h1
      unfold rowBuilder
      cases hf : r.fragment with
      | some f =>
        rw [hf] at h3
        exact buildsTo_frag_of h3 (by simp)
      | none =>
        rw [hf] at h3
        exact buildsTo_of_run (n := 1) h3 (by simp)) h1
  refine ⟨ts, h3, ?_⟩
  have : ((b.tableList.filter (rowKept b.distinct dep)).zip ts).filterMap (fun p => some p.2) = ts := by
    have hl := h3.length
    rw [List.length_map] at hl
    generalize b.tableList.filter (rowKept b.distinct dep) = rs at hl
    clear h3 h1 h
    induction rs generalizing ts with
    | nil => cases ts with
      | nil => rfl
      | cons => simp at hl
    | cons r rs ih =>
      cases ts with
      | nil => simp at hl
      | cons t ts =>
        simp only [List.zip_cons_cons, List.filterMap_cons]
        rw [ih ts (by simpa using hl)]
  rw [this]

theorem buildUnion_ok {L : GoLib} {n : Nat} {ctx : Ctx} {us : List Builder} {s s' : St} {t : Str}
    (h : buildUnion (run L n) ctx us s = (.ok t, s')) :
    ∃ ts, BuildsAll L ctx us s ts s' ∧ t = unionText ts := by
  obtain ⟨cl, s1, h1, h2⟩ := bind_ok h
  simp only [M.pure, Prod.mk.injEq, Out.ok.injEq] at h2
  obtain ⟨rfl, rfl⟩ := h2
  obtain ⟨ts, h3, rfl⟩ := collect_ok (L := L) (ctx := ctx) (keep := fun _ => true) (bld := id)
    (post := fun _ q => if q = [] then none else some q)
    (by simp)
    (by
      intro c s o s' _ h
      obtain ⟨q, s1, h1, h2⟩ := bind_ok h
      simp only [M.pure, Prod.mk.injEq, Out.ok.injEq] at h2
      obtain ⟨rfl, rfl⟩ := h2
      exact ⟨q, evals_of_run h1 (by simp), rfl⟩) h1
  have hf : us.filter (fun _ => true) = us := List.filter_eq_self.2 (by simp)
  simp only [hf, List.map_id] at h3 ⊢
  refine ⟨ts, h3, ?_⟩
  unfold unionText
  congr 3
  have hl := h3.length
  clear h3 h1 h hf
  induction us generalizing ts with
  | nil => cases ts with
    | nil => rfl
    | cons => simp at hl
  | cons r rs ih =>
    cases ts with
    | nil => simp at hl
    | cons t ts =>
      have := ih ts (by simpa using hl)
      by_cases ht : t = []
      · simpa [ht] using this
      · simpa [ht] using this

/-! ## List clauses -/

theorem decorate_clause (kw body : Str) (hk : kw ≠ []) :
    nonEmpty (decorate kw [] body) = clause kw (trimSpace body) := by
  unfold decorate nonEmpty clause
  by_cases h : trimSpace body = []
  · simp [h]
  · simp [h, hk]

theorem parse_joinRaw (L : GoLib) :
    parse L (joinRaw ", ") = .ok [.call (lit "join") [.str (lit "#" ++ lit "fragment"), .str (lit ", ")]] ∧
    parse L (joinRaw " AND ") = .ok [.call (lit "join") [.str (lit "#" ++ lit "fragment"), .str (lit " AND ")]] :=
  ⟨by kernel_rfl, by kernel_rfl⟩

/-- `#join` and `#fragment` have their built-in meaning. -/
structure ListsWork (L : GoLib) (ctx : Ctx) : Prop where
  join : BuiltIn L ctx (lit "join")
  fragment : BuiltIn L ctx (lit "fragment")

theorem commaClause_ok {L : GoLib} {ctx : Ctx} (hw : ListsWork L ctx) {pre : Str} {cs : List Builder} {n : Nat}
    {s s' : St} {t : Str} (h : buildFragment L (run L n) n ctx (.mk (joinRaw ", ") [] cs pre []) s = (.ok t, s')) :
    ∃ ts, BuildsList L ctx cs s ts s' ∧ t = decorate pre [] (strJoin (lit ", ") (ts.filter (· ≠ []))) :=
  listClause_ok hw.join (.inr rfl) hw.fragment (parse_joinRaw L).1 (buildsTo_frag_of h (by simp))

theorem andClause_ok {L : GoLib} {ctx : Ctx} (hw : ListsWork L ctx) {pre : Str} {cs : List Builder} {n : Nat}
    {s s' : St} {t : Str} (h : buildFragment L (run L n) n ctx (.mk (joinRaw " AND ") [] cs pre []) s = (.ok t, s')) :
    ∃ ts, BuildsList L ctx cs s ts s' ∧ t = decorate pre [] (strJoin (lit " AND ") (ts.filter (· ≠ []))) :=
  listClause_ok hw.join (.inr rfl) hw.fragment (parse_joinRaw L).2 (buildsTo_frag_of h (by simp))

theorem Spec.BuildsAll.grown {L : GoLib} {ctx : Ctx} {bs : List Builder} {s s' : St} {ts : List Str}
    (h : BuildsAll L ctx bs s ts s') : HeapGrown s s' := by
  induction h with
  | nil => exact heapGrown_effRel.refl _
  | cons h _ ih => exact heapGrown_effRel.trans h.grown ih

theorem Spec.BuildsList.grown {L : GoLib} {ctx : Ctx} {bs : List Builder} {s s' : St} {ts : List Str}
    (h : BuildsList L ctx bs s ts s') : HeapGrown s s' := by
  induction h with
  | nil => exact heapGrown_effRel.refl _
  | cons h _ ih => exact heapGrown_effRel.trans h.grown ih
  | lost h _ => exact h.grown

theorem getQB_ok {r : Nat} {s s' : St} {b : QB} (h : getQB r s = (.ok b, s')) :
    s.heap[r]? = some b ∧ s = s' := by
  unfold getQB at h
  cases hr : s.heap[r]? with
  | none => rw [hr] at h; simp at h
  | some b' =>
    rw [hr] at h
    simp only [Prod.mk.injEq, Out.ok.injEq] at h
    exact ⟨by rw [h.1], h.2⟩

theorem modifyQB_ok {r : Nat} {f : QB → QB} {s s' : St} {u : Unit} (h : modifyQB r f s = (.ok u, s')) :
    ∃ b, s.heap[r]? = some b ∧ s' = setQB s r (f b) := by
  unfold modifyQB at h
  cases hr : s.heap[r]? with
  | none => rw [hr] at h; simp at h
  | some b =>
    rw [hr] at h
    simp only [Prod.mk.injEq] at h
    exact ⟨b, rfl, h.2.symm⟩

theorem setQB_get {s : St} {r : Nat} {b b' : QB} (h : s.heap[r]? = some b) : (setQB s r b').heap[r]? = some b' := by
  unfold setQB
  have := (List.getElem?_eq_some_iff.1 h).1
  dsimp only
  rw [List.getElem?_set_self this]

/-! ## The query -/

theorem trimSpace_nil : trimSpace [] = [] := rfl

/-- What the build of a query builder consists of. -/
structure Built (L : GoLib) (ctx : Ctx) (cs : List Call) (b : QB) (dep : Deps) (r : Nat) (s : St) (t : Str) (s' : St) : Prop where
  deps : b.collectDependencies = .ok dep
  noErrors : b.errors = []
  built : ∃ touches p mid post, QueryBuilt L ctx cs ((declaredBy cs).filter (cteKept dep))
      (b.tableList.filter (rowKept (distinctIn cs) dep)) touches s p s' ∧ t = p.text ∧
      touches = b.touches.frags ++ mid ++ orderColumns (distinctIn cs) 1 (orderedBy cs) ++ post ∧
      (∀ t ∈ touches, OrderTouch (distinctIn cs) (orderedBy cs) t) ∧ listed (lit ", ") p.select ≠ []
  /-- invalid orders are recorded -/
  errors : ∃ b', s'.heap[r]? = some b' ∧ ∀ o ∈ orderedBy cs, orderText o.order = none →
    .builder (lit "invalid order: " ++ natDigits o.order) ∈ b'.errors

theorem MadeBy.grown {cs : List Call} {b b' : QB} (h : MadeBy cs b) (hg : Grown b b') : MadeBy cs b' := by
  constructor
  · exact hg.ctes.trans h.ctes
  · obtain ⟨p, hp⟩ := h.selects
    obtain ⟨q, hq⟩ := hg.selects
    exact ⟨q, by rw [hq, hp]; rfl⟩
  · obtain ⟨p, hp, hp'⟩ := h.touches
    obtain ⟨q, hq, hq'⟩ := hg.touches
    rw [h.distinct, h.orders] at hq'
    exact ⟨p ++ q, by rw [hq, hp]; rfl, fun t ht => (List.mem_append.1 ht).elim (hp' t) (hq' t)⟩
  · exact hg.conditions.trans h.conditions
  · exact hg.orders.trans h.orders
  · exact hg.groupbys.trans h.groupbys
  · exact hg.distinct.trans h.distinct
  · exact hg.limit.trans h.limit
  · exact hg.offset.trans h.offset
  · exact hg.unions.trans h.unions

theorem buildOrders_ok {L : GoLib} {n : Nat} {ctx : Ctx} (hw : ListsWork L ctx) {cs : List Call} {r : Nat} {b : QB}
    {s s' : St} {t : Str} (hr : s.heap[r]? = some b) (hm : MadeBy cs b)
    (h : buildOrders L (run L n) n ctx r s = (.ok t, s')) :
    ∃ s1 b1 os, s1.store = s.store ∧ s1.heap[r]? = some b1 ∧ Grown b b1 ∧
      b1.touches.frags = b.touches.frags ++ orderColumns (distinctIn cs) 1 (orderedBy cs) ∧
      (∀ o ∈ orderedBy cs, orderText o.order = none → .builder (lit "invalid order: " ++ natDigits o.order) ∈ b1.errors) ∧
      BuildsList L ctx (orderBuilders (distinctIn cs) 1 (orderedBy cs)) s1 os s' ∧
      nonEmpty t = clause (lit "ORDER BY") (listed (lit ", ") os) := by
  obtain ⟨b', s1, h1, h2⟩ := bind_ok h
  obtain ⟨h3, rfl⟩ := getQB_ok h1
  rw [hr] at h3
  cases h3
  obtain ⟨u, s2, h4, h5⟩ := bind_ok h2
  obtain ⟨b', h6, rfl⟩ := modifyQB_ok h4
  rw [hr] at h6
  cases h6
  obtain ⟨o1, o2, -⟩ := orderItems_eq b.distinct 0 b.orders
  have o3 := orderItems_errors b.distinct 0 b.orders
  have hd := hm.distinct
  have ho := hm.orders
  have hgrown := grown_orders b
  generalize orderItems b.distinct 0 b.orders = res at *
  rw [hd, ho] at o1 o2
  rw [ho] at o3
  simp only [Nat.zero_add] at o1 o2
  have hfrag : (((Fragment.F (joinRaw ", ")).withPrefix (lit "ORDER BY")).appendFragments res.1) =
      .mk (joinRaw ", ") [] (orderBuilders (distinctIn cs) 1 (orderedBy cs)) (lit "ORDER BY") [] := by
    rw [o1]; rfl
  rw [hfrag] at h5
  obtain ⟨os, h7, rfl⟩ := commaClause_ok hw h5
  refine ⟨_, { b with touches := b.touches.appendFragments res.2.1, errors := b.errors ++ res.2.2 }, os, ?_, ?_,
    ?_, ?_, ?_, h7, decorate_clause _ _ (by decide)⟩
  rotate_left 1
  · exact setQB_get hr
  · exact hgrown
  · dsimp only
    rw [o2]
    obtain ⟨ts, ht, -⟩ := hm.touches
    rw [ht]; rfl
  · intro o ho hn
    dsimp only
    rw [o3]
    exact List.mem_append_right _ (List.mem_map.2 ⟨o, List.mem_filter.2 ⟨ho, by simpa using hn⟩, rfl⟩)
  · rfl

theorem buildSelects_ok {L : GoLib} {n : Nat} {ctx : Ctx} (hw : ListsWork L ctx) {cs : List Call} {r : Nat} {b : QB}
    {s s' : St} {t : Str} (hr : s.heap[r]? = some b) (hm : MadeBy cs b)
    (h : buildSelects L (run L n) n ctx r s = (.ok t, s')) :
    ∃ s1 s2 ss xs post, s1.store = s.store ∧ BuildsList L ctx (selectedBy cs) s1 ss s2 ∧
      BuildsList L ctx (b.touches.frags ++ post) s2 xs s' ∧
      (∀ t ∈ post, OrderTouch (distinctIn cs) (orderedBy cs) t) ∧ HeapGrown s s' ∧ listed (lit ", ") ss ≠ [] ∧
      t = (if distinctIn cs then lit "SELECT DISTINCT" else lit "SELECT") ++ lit " " ++ listed (lit ", ") ss
        ++ if listed (lit ", ") xs = [] then [] else lit ", " ++ listed (lit ", ") xs := by
  obtain ⟨u, s1, h1, h2⟩ := bind_ok h
  obtain ⟨b', h3, rfl⟩ := modifyQB_ok h1
  rw [hr] at h3
  cases h3
  obtain ⟨b1, s1, h4, h5⟩ := bind_ok h2
  obtain ⟨h6, rfl⟩ := getQB_ok h4
  rw [setQB_get hr] at h6
  cases h6
  obtain ⟨sel, s2, h7, h8⟩ := bind_ok h5
  have g1 := heapGrown_set hr (grown_selects b (if b.distinct = true then lit "SELECT DISTINCT" else lit "SELECT"))
  have hsel : b.selects.withPrefix (if b.distinct = true then lit "SELECT DISTINCT" else lit "SELECT") =
      .mk (joinRaw ", ") [] (selectedBy cs) (if distinctIn cs = true then lit "SELECT DISTINCT" else lit "SELECT") [] := by
    obtain ⟨p, hp⟩ := hm.selects
    rw [hp, hm.distinct]; rfl
  dsimp only at h7
  rw [hsel] at h7 g1
  obtain ⟨ss, h9, rfl⟩ := commaClause_ok hw h7
  obtain ⟨b2, s3, h10, h11⟩ := bind_ok h8
  obtain ⟨h12, rfl⟩ := getQB_ok h10
  obtain ⟨b2', h13, hg⟩ := (heapGrown_effRel.trans g1 h9.grown) r b hr
  rw [h12] at h13
  cases h13
  obtain ⟨xt, s4, h14, h15⟩ := bind_ok h11
  obtain ⟨ts, ht, -⟩ := hm.touches
  obtain ⟨post, hpost, hpost'⟩ := hg.touches
  rw [hm.distinct, hm.orders] at hpost'
  have htouch : b2.touches = .mk (joinRaw ", ") [] (b.touches.frags ++ post) [] [] := by
    rw [hpost, ht]; rfl
  rw [htouch] at h14
  obtain ⟨xs, h16, rfl⟩ := commaClause_ok hw h14
  by_cases hne : decorate (if distinctIn cs = true then lit "SELECT DISTINCT" else lit "SELECT") []
      (strJoin (lit ", ") (ss.filter (· ≠ []))) = []
  · have h15 := (congrFun (if_pos hne) _).symm.trans h15
    simp [M.err] at h15
  · have h15 := (congrFun (if_neg hne) _).symm.trans h15
    have hss : listed (lit ", ") ss ≠ [] := by
      intro h0
      apply hne
      unfold decorate
      exact if_pos h0
    simp only [M.pure, Prod.mk.injEq, Out.ok.injEq] at h15
    obtain ⟨rfl, rfl⟩ := h15
    refine ⟨_, _, ss, xs, post, ?_, h9, h16, hpost', ?_, hss, ?_⟩
    · rfl
    · exact heapGrown_effRel.trans g1 (heapGrown_effRel.trans h9.grown h16.grown)
    · have e1 : decorate [] [] (strJoin (lit ", ") (xs.filter (· ≠ []))) = listed (lit ", ") xs := by
        unfold decorate listed
        by_cases h0 : trimSpace (strJoin (lit ", ") (xs.filter (· ≠ []))) = []
        · rw [if_pos h0, h0]
        · rw [if_neg h0]; simp
      have e2 : ∀ pre : Str, pre ≠ [] → decorate pre [] (strJoin (lit ", ") (ss.filter (· ≠ []))) =
          pre ++ lit " " ++ listed (lit ", ") ss := by
        intro pre hp
        unfold decorate
        dsimp only
        have : trimSpace (strJoin (lit ", ") (ss.filter (· ≠ []))) ≠ [] := hss
        rw [if_neg this, if_pos hp]
        simp [listed]
      rw [e1, e2 _ (by split <;> decide)]
      split <;> simp

theorem buildInternal_ok {L : GoLib} {n : Nat} {ctx : Ctx} (hw : ListsWork L ctx) {cs : List Call} {r : Nat} {b : QB}
    {s s' : St} {t : Str} (hr : s.heap[r]? = some b) (hm : MadeBy cs b)
    (h : buildInternal L (run L n) n ctx r s = (.ok t, s')) : ∃ dep, Built L ctx cs b dep r s t s' := by
  obtain ⟨b0, s0, h1, h⟩ := bind_ok h
  obtain ⟨h2, rfl⟩ := getQB_ok h1
  rw [hr] at h2
  cases h2
  by_cases herr : b.errors.length ≠ 0
  · rw [if_pos herr] at h
    simp [M.err] at h
  rw [if_neg herr] at h
  have herr : b.errors = [] := by simpa using herr
  obtain ⟨dep, s1, h3, h⟩ := bind_ok h
  have hdep : b.collectDependencies = .ok dep ∧ s = s1 := by
    unfold M.ofOut at h3
    simp only [Prod.mk.injEq] at h3
    exact h3
  obtain ⟨hdep, rfl⟩ := hdep
  -- CTEs
  obtain ⟨sq, s1, h4, h⟩ := bind_ok h
  obtain ⟨qs, hq, hqt⟩ := buildCTEs_ok h4
  have g1 := hq.grown
  -- FROM
  obtain ⟨b1, s2, h5, h⟩ := bind_ok h
  obtain ⟨hr1, rfl⟩ := getQB_ok h5
  obtain ⟨b1', h6, k1⟩ := g1 r b hr
  rw [hr1] at h6
  cases h6
  have m1 := hm.grown k1
  obtain ⟨fr, s2, h7, h⟩ := bind_ok h
  obtain ⟨ts, hts, rfl⟩ := buildFrom_ok h7
  have g2 := heapGrown_effRel.trans g1 hts.grown
  -- WHERE
  obtain ⟨b2, s3, h8, h⟩ := bind_ok h
  obtain ⟨hr2, rfl⟩ := getQB_ok h8
  obtain ⟨b2', h9, k2⟩ := g2 r b hr
  rw [hr2] at h9
  cases h9
  have m2 := hm.grown k2
  obtain ⟨wh, s3, h10, h⟩ := bind_ok h
  rw [m2.conditions] at h10
  obtain ⟨ws, hws, rfl⟩ := andClause_ok hw h10
  have g3 := heapGrown_effRel.trans g2 hws.grown
  -- GROUP BY
  obtain ⟨b3, s4, h11, h⟩ := bind_ok h
  obtain ⟨hr3, rfl⟩ := getQB_ok h11
  obtain ⟨b3', h12, k3⟩ := g3 r b hr
  rw [hr3] at h12
  cases h12
  have m3 := hm.grown k3
  obtain ⟨gb, s4, h13, h⟩ := bind_ok h
  rw [m3.groupbys] at h13
  obtain ⟨gs, hgs, rfl⟩ := commaClause_ok hw h13
  have g4 := heapGrown_effRel.trans g3 hgs.grown
  -- ORDER BY
  obtain ⟨b4, hr4, k4⟩ := g4 r b hr
  have m4 := hm.grown k4
  obtain ⟨ob, s5, h14, h⟩ := bind_ok h
  obtain ⟨s4', b5, os, hst4, hr5, k45, htouch5, herr5, hos, hot⟩ := buildOrders_ok hw hr4 m4 h14
  have m5 := m4.grown k45
  -- LIMIT and OFFSET
  obtain ⟨b6, s6, h15, h⟩ := bind_ok h
  obtain ⟨hr6, rfl⟩ := getQB_ok h15
  obtain ⟨b6', h16, k56⟩ := hos.grown r b5 hr5
  rw [hr6] at h16
  cases h16
  have m6 := m5.grown k56
  rw [m6.limit, m6.offset] at h
  -- SELECT
  obtain ⟨sel, s6, h17, h⟩ := bind_ok h
  obtain ⟨s5', s6', ss, xs, post, hst5, hss, hxs, hpost, g6, hne, rfl⟩ := buildSelects_ok hw hr6 m6 h17
  obtain ⟨mid1, hmid1, hm1⟩ := k4.touches
  obtain ⟨mid2, hmid2, hm2⟩ := k56.touches
  rw [hm.distinct, hm.orders] at hm1
  rw [m5.distinct, m5.orders] at hm2
  have htouches : b6.touches.frags ++ post = b.touches.frags ++ mid1 ++ orderColumns (distinctIn cs) 1 (orderedBy cs)
      ++ (mid2 ++ post) := by
    have e1 : b4.touches.frags = b.touches.frags ++ mid1 := by
      rw [hmid1]; cases b.touches; rfl
    have e2 : b6.touches.frags = b5.touches.frags ++ mid2 := by
      rw [hmid2]; cases b5.touches; rfl
    rw [e2, htouch5, e1, List.append_assoc _ mid2 post]
  rw [htouches] at hxs
  have hall : ∀ t ∈ b.touches.frags ++ mid1 ++ orderColumns (distinctIn cs) 1 (orderedBy cs) ++ (mid2 ++ post),
      OrderTouch (distinctIn cs) (orderedBy cs) t := by
    intro t ht
    simp only [List.mem_append] at ht
    rcases ht with ((ht | ht) | ht) | ht | ht
    · obtain ⟨ts, h1, h2⟩ := hm.touches
      rw [h1] at ht
      exact h2 t ht
    · exact hm1 t ht
    · exact orderColumns_touch ht
    · exact hm2 t ht
    · exact hpost t ht
  -- UNION
  obtain ⟨b7, s7, h18, h⟩ := bind_ok h
  obtain ⟨hr7, rfl⟩ := getQB_ok h18
  obtain ⟨b7', h19, k67⟩ := g6 r b6 hr6
  rw [hr7] at h19
  cases h19
  have m7 := m6.grown k67
  obtain ⟨q, s8, h20, h⟩ := bind_ok h
  obtain ⟨b8, s9, h21, h⟩ := bind_ok h
  obtain ⟨hr8, rfl⟩ := getQB_ok h21
  obtain ⟨u, s10, h22, h⟩ := bind_ok h
  simp only [M.pure, Prod.mk.injEq, Out.ok.injEq] at h
  obtain ⟨rfl, rfl⟩ := h
  have hlog : s10.store = s8.store ∧ s10.heap = s8.heap := by
    split at h22
    · unfold debugLog at h22
      split at h22
      · simp only [Prod.mk.injEq] at h22; rw [← h22.2]; exact ⟨rfl, rfl⟩
      · simp only [Prod.mk.injEq] at h22; rw [← h22.2]; exact ⟨rfl, rfl⟩
      · simp at h22
      · simp at h22
    · simp only [M.pure, Prod.mk.injEq] at h22; rw [← h22.2]; exact ⟨rfl, rfl⟩
  have hunion : ∃ us, BuildsAll L ctx (unitedWith cs) s6 us s8 ∧ q = Parts.text
      { ctes := (((declaredBy cs).filter (cteKept dep)).map (·.name)).zip qs, distinct := distinctIn cs, select := ss,
        touches := xs, tables := ts, where_ := ws, groupBy := gs, orderBy := os, limit := limitOf cs,
        offset := offsetOf cs, unions := if unitedWith cs = [] then none else some us } := by
    have hcl : ∀ us, (nonEmpty sq ++ [(if distinctIn cs then lit "SELECT DISTINCT" else lit "SELECT") ++ lit " " ++
        listed (lit ", ") ss ++ if listed (lit ", ") xs = [] then [] else lit ", " ++ listed (lit ", ") xs] ++
        nonEmpty (lit "FROM " ++ strJoin (lit " ") ts) ++
        nonEmpty (decorate (lit "WHERE") [] (strJoin (lit " AND ") (ws.filter (· ≠ [])))) ++
        nonEmpty (decorate (lit "GROUP BY") [] (strJoin (lit ", ") (gs.filter (· ≠ [])))) ++
        nonEmpty ob ++ (if limitOf cs > 0 then [lit "LIMIT " ++ itoa (limitOf cs)] else []) ++
        (if offsetOf cs > 0 then [lit "OFFSET " ++ itoa (offsetOf cs)] else [])) = Parts.clauses
      { ctes := (((declaredBy cs).filter (cteKept dep)).map (·.name)).zip qs, distinct := distinctIn cs, select := ss,
        touches := xs, tables := ts, where_ := ws, groupBy := gs, orderBy := os, limit := limitOf cs,
        offset := offsetOf cs, unions := us } := by
      intro us
      rw [decorate_clause _ _ (by decide), decorate_clause _ _ (by decide), hot, hqt, hm.ctes]
      have : nonEmpty (lit "FROM " ++ strJoin (lit " ") ts) = [lit "FROM " ++ strJoin (lit " ") ts] := by
        unfold nonEmpty; rw [if_neg (by simp [lit])]
      rw [this]
      rfl
    rw [m7.unions] at h20
    by_cases hu : unitedWith cs = []
    · rw [hu] at h20 ⊢
      rw [if_neg (by simp)] at h20
      simp only [M.pure, Prod.mk.injEq, Out.ok.injEq] at h20
      obtain ⟨rfl, rfl⟩ := h20
      refine ⟨[], .nil _, ?_⟩
      rw [hcl none]; rfl
    · have hpos : (unitedWith cs).length > 0 := List.length_pos_iff.2 hu
      rw [if_pos hpos] at h20
      obtain ⟨ut, s11, h23, h24⟩ := bind_ok h20
      obtain ⟨us, h25, rfl⟩ := buildUnion_ok h23
      simp only [M.pure, Prod.mk.injEq, Out.ok.injEq] at h24
      obtain ⟨rfl, rfl⟩ := h24
      refine ⟨us, h25, ?_⟩
      rw [hcl (some us), if_neg hu]; rfl
  obtain ⟨us, hus, rfl⟩ := hunion
  have hrows : b1.tableList.filter (rowKept b1.distinct dep) = b.tableList.filter (rowKept (distinctIn cs) dep) := by
    rw [k1.tableList, m1.distinct]
  rw [hrows] at hts
  rw [hm.ctes] at hq
  refine ⟨dep, hdep, herr, ⟨_, _, mid1, mid2 ++ post, .mk hq hts hws hgs hst4 hos hst5 hss hxs hus hlog.1, rfl, rfl, hall, hne⟩, ?_⟩
  obtain ⟨b9, hr9, k9⟩ := hus.grown r b7 hr7
  refine ⟨b9, by rw [hlog.2]; exact hr9, ?_⟩
  intro o ho hn
  exact k9.errors.subset (k67.errors.subset (k56.errors.subset (herr5 o ho hn)))

/-- A query builder made by calls that builds, builds the query asked for. -/
theorem query_ok {L : GoLib} {ctx : Ctx} (hw : ListsWork L ctx) {cs : List Call} {r : Nat} {b : QB}
    {s s' : St} {t : Str} (hr : s.heap[r]? = some b) (hm : Made L cs b)
    (h : BuildsTo L ctx (.qb r) s (.ok t, s')) : ∃ dep, Built L ctx cs b dep r s t s' := by
  obtain ⟨-, N, h⟩ := h
  exact buildInternal_ok (n := N) hw hr hm.fields (h (N + 1) (by omega))

end Sqlf
