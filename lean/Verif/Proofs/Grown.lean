import Verif.Proofs.Calls
import Verif.Proofs.Effects
import Verif.Proofs.Ev
import Verif.Spec.Query
/-!
# What builds do to query builders
-/

namespace Sqlf

open Spec

/-- What builds change in a query builder: the prefix of the SELECT clause, columns added for
ordering, and errors. -/
structure Grown (b b' : QB) : Prop where
  ctes : b'.ctes = b.ctes
  cells : b'.cells = b.cells
  tables : b'.tables = b.tables
  tablesDict : b'.tablesDict = b.tablesDict
  selects : ∃ p, b'.selects = b.selects.withPrefix p
  touches : ∃ ts, b'.touches = b.touches.appendFragments ts ∧ ∀ t ∈ ts, OrderTouch b.distinct b.orders t
  conditions : b'.conditions = b.conditions
  orders : b'.orders = b.orders
  groupbys : b'.groupbys = b.groupbys
  distinct : b'.distinct = b.distinct
  limit : b'.limit = b.limit
  offset : b'.offset = b.offset
  unions : b'.unions = b.unions
  errors : b.errors.Sublist b'.errors
  newErrors : ∀ e ∈ b'.errors, e ∈ b.errors ∨
    ∃ o ∈ b.orders, orderText o.order = none ∧ e = .builder (lit "invalid order: " ++ natDigits o.order)
  debug : b'.debug = b.debug

theorem withPrefix_self (f : Fragment) : ∃ p, f = f.withPrefix p := by
  cases f with
  | mk r a fs p s => exact ⟨p, rfl⟩

theorem withPrefix_withPrefix (f : Fragment) (p q : Str) : (f.withPrefix p).withPrefix q = f.withPrefix q := by
  cases f; rfl

theorem Grown.refl (b : QB) : Grown b b :=
  ⟨rfl, rfl, rfl, rfl, withPrefix_self _, ⟨[], (appendFragments_nil _).symm, by simp⟩, rfl, rfl, rfl, rfl, rfl, rfl, rfl,
    List.Sublist.refl _, fun _ h => .inl h, rfl⟩

theorem Grown.trans {a b c : QB} (h : Grown a b) (h' : Grown b c) : Grown a c := by
  constructor
  · exact h'.ctes.trans h.ctes
  · exact h'.cells.trans h.cells
  · exact h'.tables.trans h.tables
  · exact h'.tablesDict.trans h.tablesDict
  · obtain ⟨p, hp⟩ := h.selects
    obtain ⟨q, hq⟩ := h'.selects
    exact ⟨q, by rw [hq, hp, withPrefix_withPrefix]⟩
  · obtain ⟨p, hp, hp'⟩ := h.touches
    obtain ⟨q, hq, hq'⟩ := h'.touches
    rw [h.distinct, h.orders] at hq'
    refine ⟨p ++ q, by rw [hq, hp, appendFragments_append], fun t ht => ?_⟩
    exact (List.mem_append.1 ht).elim (hp' t) (hq' t)
  · exact h'.conditions.trans h.conditions
  · exact h'.orders.trans h.orders
  · exact h'.groupbys.trans h.groupbys
  · exact h'.distinct.trans h.distinct
  · exact h'.limit.trans h.limit
  · exact h'.offset.trans h.offset
  · exact h'.unions.trans h.unions
  · exact h.errors.trans h'.errors
  · intro e he
    have := h'.newErrors e he
    rw [h.orders] at this
    exact this.elim (h.newErrors e) .inr
  · exact h'.debug.trans h.debug

theorem orderItems_eq (d : Bool) (i : Nat) (items : List OrderItem) :
    (orderItems d i items).1 = orderBuilders d (i + 1) items ∧
    (orderItems d i items).2.1 = orderColumns d (i + 1) items ∧
    ((orderItems d i items).2.2 = [] ↔ ∀ o ∈ items, orderText o.order ≠ none) := by
  induction items generalizing i with
  | nil => simp [orderItems, orderBuilders, orderColumns]
  | cons o items ih =>
    obtain ⟨h1, h2, h3⟩ := ih (i + 1)
    have hn : orderNames[o.order]? = orderText o.order := rfl
    unfold orderItems orderBuilders orderColumns
    dsimp only
    rw [hn]
    cases ho : orderText o.order with
    | none => exact ⟨h1, h2, by simp [ho]⟩
    | some name =>
      cases d with
      | true =>
        simp only [Bool.not_true, Bool.false_eq_true, if_false, if_true, List.singleton_append]
        exact ⟨by rw [h1]; rfl, by rw [h2]; rfl, by simp [ho, h3]⟩
      | false =>
        simp only [Bool.not_false, Bool.false_eq_true, if_false, if_true, List.singleton_append, List.nil_append]
        exact ⟨by rw [h1], h2, by simp [ho, h3]⟩

theorem orderItems_errors (d : Bool) (i : Nat) (items : List OrderItem) :
    (orderItems d i items).2.2 =
      (items.filter fun o => orderText o.order = none).map fun o => .builder (lit "invalid order: " ++ natDigits o.order) := by
  induction items generalizing i with
  | nil => rfl
  | cons o items ih =>
    have hn : orderNames[o.order]? = orderText o.order := rfl
    unfold orderItems
    dsimp only
    rw [hn]
    cases ho : orderText o.order with
    | none => simp [ho, ih (i + 1)]
    | some name =>
      cases d <;> simp [ho, ih (i + 1)]

theorem orderColumns_touch {d : Bool} {i : Nat} {items : List OrderItem} {t : Builder} (h : t ∈ orderColumns d i items) :
    OrderTouch d items t := by
  induction items generalizing i with
  | nil => simp [orderColumns] at h
  | cons o items ih =>
    unfold orderColumns at h
    rcases List.mem_append.1 h with h | h
    · cases ho : orderText o.order with
      | none => rw [ho] at h; simp at h
      | some name =>
        rw [ho] at h
        cases d with
        | false => simp at h
        | true =>
          simp only [if_true, List.mem_singleton] at h
          exact ⟨rfl, o, List.mem_cons_self, i, h⟩
    · obtain ⟨h1, o', h2, h3⟩ := ih h
      exact ⟨h1, o', List.mem_cons_of_mem _ h2, h3⟩

theorem grown_orders (b : QB) :
    Grown b { b with
      touches := b.touches.appendFragments (orderItems b.distinct 0 b.orders).2.1
      errors := b.errors ++ (orderItems b.distinct 0 b.orders).2.2 } :=
  ⟨rfl, rfl, rfl, rfl, withPrefix_self _, ⟨_, rfl, fun t ht => by
      rw [(orderItems_eq b.distinct 0 b.orders).2.1] at ht
      exact orderColumns_touch ht⟩, rfl, rfl, rfl, rfl, rfl, rfl, rfl,
    List.sublist_append_left _ _, fun e he => by
      rcases List.mem_append.1 he with h | h
      · exact .inl h
      · right
        rw [orderItems_errors, List.mem_map] at h
        obtain ⟨o, ho, rfl⟩ := h
        rw [List.mem_filter] at ho
        exact ⟨o, ho.1, by simpa using ho.2, rfl⟩, rfl⟩

theorem grown_selects (b : QB) (p : Str) : Grown b { b with selects := b.selects.withPrefix p } :=
  ⟨rfl, rfl, rfl, rfl, ⟨p, rfl⟩, ⟨[], (appendFragments_nil _).symm, by simp⟩, rfl, rfl, rfl, rfl, rfl, rfl, rfl,
    List.Sublist.refl _, fun _ h => .inl h, rfl⟩

/-- All query builders have grown. -/
def HeapGrown (s s' : St) : Prop := ∀ (r : Nat) (b : QB), s.heap[r]? = some b → ∃ b', s'.heap[r]? = some b' ∧ Grown b b'

theorem heapGrown_set {s : St} {r : Nat} {b b' : QB} (hr : s.heap[r]? = some b) (h : Grown b b') :
    HeapGrown s (setQB s r b') := by
  intro r' b1 h1
  unfold setQB
  dsimp only
  by_cases e : r = r'
  · subst e
    rw [hr] at h1
    cases h1
    have := (List.getElem?_eq_some_iff.1 hr).1
    exact ⟨b', by rw [List.getElem?_set_self this], h⟩
  · exact ⟨b1, by rw [List.getElem?_set_ne e]; exact h1, .refl _⟩

theorem heapGrown_effRel : EffRel HeapGrown where
  refl s := fun r b h => ⟨b, h, .refl b⟩
  trans h h' := fun r b hb => by
    obtain ⟨b1, h1, h2⟩ := h r b hb
    obtain ⟨b2, h3, h4⟩ := h' r b1 h1
    exact ⟨b2, h3, h2.trans h4⟩
  commit s v p st h := fun r b h => ⟨b, h, .refl b⟩
  markA s k := fun r b h => ⟨b, h, .refl b⟩
  markF s k := fun r b h => ⟨b, h, .refl b⟩
  fresh s s' h := h
  own _ s s' h := h
  orders s r b h := heapGrown_set h (grown_orders b)
  selects s r b p h := heapGrown_set h (grown_selects b p)
  log _ _ _ _ _ _ := fun r b h => ⟨b, h, .refl b⟩

/-- Builds only make query builders grow. -/
theorem run_grown (L : GoLib) (n : Nat) (ctx : Ctx) (t : Task) (s : St) : HeapGrown s (run L n ctx t s).2 :=
  (run_eff heapGrown_effRel L n ctx t).out s

theorem Spec.BuildsTo.grown {L : GoLib} {ctx : Ctx} {c : Builder} {s s' : St} {o : Out Str}
    (h : BuildsTo L ctx c s (o, s')) : HeapGrown s s' := by
  obtain ⟨-, N, h⟩ := h
  have := run_grown L N ctx (.build c) s
  rw [h N (Nat.le_refl _)] at this
  exact this

/-! ## Calls after builds -/

theorem Grown.resolve {b b' : QB} (h : Grown b b') (n : Str) : Spec.resolve b' n = Spec.resolve b n := by
  unfold Spec.resolve QB.dictGet QB.cell
  rw [h.tablesDict, h.cells]

theorem Grown.dictGet {b b' : QB} (h : Grown b b') (n : Str) : b'.dictGet n = b.dictGet n := by
  unfold QB.dictGet
  rw [h.tablesDict]

theorem Grown.tableList {b b' : QB} (h : Grown b b') : b'.tableList = b.tableList := by
  unfold QB.tableList
  rw [h.tables]
  apply List.map_congr_left
  intro p _
  unfold QB.cell
  rw [h.cells]

theorem Grown.withErrors {b b' : QB} (h : Grown b b') (e : Err) : Grown (b.pushError e) (b'.pushError e) :=
  { h with
    errors := h.errors.append (List.Sublist.refl _)
    newErrors := by
      intro x hx
      simp only [QB.pushError, List.mem_append, List.mem_singleton] at hx ⊢
      rcases hx with hx | hx
      · exact (h.newErrors x hx).imp .inl id
      · exact .inl (.inr hx) }

theorem Grown.withTables {b b' : QB} (h : Grown b b') (c : List FromTable) (t : List Nat) (d : List (Str × Nat)) :
    Grown { b with cells := c, tables := t, tablesDict := d } { b' with cells := c, tables := t, tablesDict := d } :=
  { h with cells := rfl, tables := rfl, tablesDict := rfl }

theorem Grown.join {b b' b1 : QB} (h : Grown b b') {k : Str} {t : TableAliased} {on : Option Fragment} {opt : Bool}
    (h1 : b'.join k t on opt = .ok b1) : ∃ b0, b.join k t on opt = .ok b0 ∧ Grown b0 b1 := by
  unfold QB.join at h1 ⊢
  by_cases ht : t.name = []
  · rw [if_pos ht] at h1 ⊢
    cases h1
    exact ⟨_, rfl, h.withErrors _⟩
  · rw [if_neg ht] at h1 ⊢
    dsimp only at h1 ⊢
    rw [h.tables] at h1
    have key : ∀ {c c' : QB}, Grown c c' → ∀ {o : Out QB} {b1},
        (match on with
          | none => .panic .nilDereference
          | some on =>
            match c'.dictGet t.appliedName with
            | some ptr => .ok { c' with cells := c'.cells.set ptr ⟨t, some (.Ff (k ++ lit " " ++ QB.tableAndAlias t ++ lit " #f1")
                [.frag (on.withPrefix (lit "ON"))]), opt⟩ }
            | none => .ok { c' with
                cells := c'.cells ++ [⟨t, some (.Ff (k ++ lit " " ++ QB.tableAndAlias t ++ lit " #f1")
                [.frag (on.withPrefix (lit "ON"))]), opt⟩]
                tables := c'.tables ++ [c'.cells.length]
                tablesDict := (t.appliedName, c'.cells.length) :: c'.tablesDict } : Out QB) = .ok b1 →
        ∃ b0, (match on with
          | none => .panic .nilDereference
          | some on =>
            match c.dictGet t.appliedName with
            | some ptr => .ok { c with cells := c.cells.set ptr ⟨t, some (.Ff (k ++ lit " " ++ QB.tableAndAlias t ++ lit " #f1")
                [.frag (on.withPrefix (lit "ON"))]), opt⟩ }
            | none => .ok { c with
                cells := c.cells ++ [⟨t, some (.Ff (k ++ lit " " ++ QB.tableAndAlias t ++ lit " #f1")
                [.frag (on.withPrefix (lit "ON"))]), opt⟩]
                tables := c.tables ++ [c.cells.length]
                tablesDict := (t.appliedName, c.cells.length) :: c.tablesDict } : Out QB) = .ok b0 ∧ Grown b0 b1 := by
      intro c c' hc _ b1 h1
      cases on with
      | none => cases h1
      | some on =>
        dsimp only at h1 ⊢
        rw [hc.dictGet, hc.cells, hc.tables, hc.tablesDict] at h1
        cases hd : c.dictGet t.appliedName with
        | some ptr =>
          rw [hd] at h1
          cases h1
          exact ⟨_, rfl, { hc with cells := rfl, tables := rfl, tablesDict := rfl }⟩
        | none =>
          rw [hd] at h1
          cases h1
          exact ⟨_, rfl, { hc with cells := rfl, tables := rfl, tablesDict := rfl }⟩
    by_cases hl : b.tables.length = 0
    · rw [if_pos hl] at h1 ⊢
      refine key (c := { b with cells := b.cells ++ [⟨⟨[], []⟩, none, false⟩], tables := b.tables ++ [b.cells.length] })
        (c' := { b' with cells := b'.cells ++ [⟨⟨[], []⟩, none, false⟩], tables := b.tables ++ [b'.cells.length] })
        { h with cells := by rw [h.cells], tables := by rw [h.cells] } (o := .oof) h1
    · rw [if_neg hl] at h1 ⊢
      exact key h (o := .oof) h1

theorem Grown.from_ {b b' : QB} (h : Grown b b') (t : TableAliased) : Grown (b.from_ t) (b'.from_ t) := by
  unfold QB.from_
  split
  · exact h.withErrors _
  · rw [h.tables, h.cells, h.tablesDict]
    exact { h with cells := rfl, tables := rfl, tablesDict := rfl }

theorem withFragments_withPrefix (f : Fragment) (cs : List Builder) (p : Str) :
    (f.withPrefix p).withFragments cs = (f.withFragments cs).withPrefix p := by
  cases f; rfl

theorem Grown.apply {b b' b1 : QB} {c : Call} (h : Grown b b') (h1 : c.apply b' = .ok b1) :
    ∃ b0, c.apply b = .ok b0 ∧ Grown b0 b1 := by
  rcases call_cases c with ⟨t, rfl⟩ | ⟨⟨t, k, on, opt⟩, hj⟩ | ⟨h2, h3⟩
  · cases h1; exact ⟨_, rfl, h.from_ t⟩
  · rw [apply_join hj] at h1
    obtain ⟨b0, h4, h5⟩ := h.join h1
    exact ⟨b0, by rw [apply_join hj]; exact h4, h5⟩
  · cases c with
    | from_ t => exact absurd rfl (h2 t)
    | innerJoin _ _ => simp [joinOf] at h3
    | leftJoin _ _ => simp [joinOf] at h3
    | leftJoinOptional _ _ => simp [joinOf] at h3
    | rightJoin _ _ => simp [joinOf] at h3
    | fullJoin _ _ => simp [joinOf] at h3
    | crossJoin _ => simp [joinOf] at h3
    | distinct =>
      cases h1
      obtain ⟨ts, h4, h5⟩ := h.touches
      exact ⟨_, rfl, { h with distinct := rfl, touches := ⟨ts, h4, fun t ht => ⟨rfl, (h5 t ht).2⟩⟩ }⟩
    | select cs =>
      cases h1
      refine ⟨_, rfl, ?_⟩
      unfold QB.select
      split
      · exact h
      · obtain ⟨p, hp⟩ := h.selects
        exact { h with selects := ⟨p, by dsimp only; rw [hp, withFragments_withPrefix]⟩ }
    | limit n =>
      cases h1
      refine ⟨_, rfl, ?_⟩
      unfold QB.setLimit
      split
      · exact { h with limit := rfl }
      · exact h
    | offset n =>
      cases h1
      refine ⟨_, rfl, ?_⟩
      unfold QB.setOffset
      split
      · exact { h with offset := rfl }
      · exact h
    | groupBy cs => cases h1; exact ⟨_, rfl, { h with groupbys := by dsimp only [QB.groupBy]; rw [h.groupbys] }⟩
    | orderBy c o =>
      cases h1
      obtain ⟨ts, h4, h5⟩ := h.touches
      refine ⟨_, rfl, { h with
        orders := by dsimp only [QB.orderBy]; rw [h.orders]
        touches := ⟨ts, h4, fun t ht => ?_⟩
        newErrors := fun e he => ?_ }⟩
      · obtain ⟨h6, o', h7, h8⟩ := h5 t ht
        exact ⟨h6, o', List.mem_append_left _ h7, h8⟩
      · rcases h.newErrors e he with h6 | ⟨o', h7, h8⟩
        · exact .inl h6
        · exact .inr ⟨o', List.mem_append_left _ h7, h8⟩
    | union bs => cases h1; exact ⟨_, rfl, { h with unions := by dsimp only [QB.union]; rw [h.unions] }⟩
    | with_ n c ds => cases h1; exact ⟨_, rfl, { h with ctes := by dsimp only [QB.with_]; rw [h.ctes] }⟩
    | where_ f =>
      cases h1
      refine ⟨_, rfl, ?_⟩
      cases f with
      | none => exact h
      | some f => exact { h with conditions := by dsimp only [QB.where_]; rw [h.conditions] }
    | where2 c op v => cases h1; exact ⟨_, rfl, { h with conditions := by dsimp only [QB.where2]; rw [h.conditions] }⟩
    | whereIn c l =>
      simp only [Call.apply, QB.whereIn, QB.whereInOp] at h1 ⊢
      split at h1 <;> cases h1
      exact ⟨_, rfl, { h with conditions := by dsimp only [QB.where_]; rw [h.conditions] }⟩
    | whereNotIn c l =>
      simp only [Call.apply, QB.whereNotIn, QB.whereInOp] at h1 ⊢
      split at h1 <;> cases h1
      exact ⟨_, rfl, { h with conditions := by dsimp only [QB.where_]; rw [h.conditions] }⟩
    | debug => cases h1; exact ⟨_, rfl, { h with debug := rfl }⟩

/-- Whatever is built in between, the calls have made a query builder that has then grown. -/
theorem Spec.Made.base {L : GoLib} {cs : List Call} {b : QB} (h : Made L cs b) :
    ∃ b0, runCalls QB.new cs = .ok b0 ∧ Grown b0 b := by
  induction h with
  | new => exact ⟨_, rfl, .refl _⟩
  | call _ hc ih =>
    obtain ⟨b0, h1, h2⟩ := ih
    obtain ⟨b1, h3, h4⟩ := h2.apply hc
    refine ⟨b1, calls_append.2 ⟨b0, h1, ?_⟩, h4⟩
    unfold runCalls
    rw [h3]; rfl
  | build _ hr hb hr' ih =>
    obtain ⟨b0, h1, h2⟩ := ih
    obtain ⟨b', h3, h4⟩ := hb.grown _ _ hr
    rw [hr'] at h3
    cases h3
    exact ⟨b0, h1, h2.trans h4⟩

/-- The fields of a query builder made by calls. -/
structure MadeBy (cs : List Call) (b : QB) : Prop where
  ctes : b.ctes = declaredBy cs
  selects : ∃ p, b.selects = .mk (joinRaw ", ") [] (selectedBy cs) p []
  touches : ∃ ts, b.touches = .mk (joinRaw ", ") [] ts [] [] ∧ ∀ t ∈ ts, OrderTouch (distinctIn cs) (orderedBy cs) t
  conditions : b.conditions = .mk (joinRaw " AND ") [] ((conditionsOf cs).map .frag) (lit "WHERE") []
  orders : b.orders = orderedBy cs
  groupbys : b.groupbys = .mk (joinRaw ", ") [] (groupedBy cs) (lit "GROUP BY") []
  distinct : b.distinct = distinctIn cs
  limit : b.limit = limitOf cs
  offset : b.offset = offsetOf cs
  unions : b.unions = unitedWith cs

theorem limitOf_nonneg (cs : List Call) : 0 ≤ limitOf cs := by
  induction cs with
  | nil => simp [limitOf]
  | cons c cs ih => cases c <;> simp [limitOf] <;> (try split) <;> (try split) <;> omega

theorem offsetOf_nonneg (cs : List Call) : 0 ≤ offsetOf cs := by
  induction cs with
  | nil => simp [offsetOf]
  | cons c cs ih => cases c <;> simp [offsetOf] <;> (try split) <;> (try split) <;> omega

theorem madeBy_of_base {cs : List Call} {b0 b : QB} (h1 : runCalls QB.new cs = .ok b0) (h2 : Grown b0 b) :
    MadeBy cs b := by
  have h3 := queryAfter_calls h1
  constructor
  · rw [h2.ctes, h3.ctes]; rfl
  · obtain ⟨p, hp⟩ := h2.selects
    refine ⟨p, ?_⟩
    rw [hp, h3.selects]
    by_cases hs : selectedBy cs = []
    · rw [if_pos hs, hs]; rfl
    · rw [if_neg hs]; rfl
  · obtain ⟨ts, ht, ht'⟩ := h2.touches
    refine ⟨ts, by rw [ht, h3.touches]; rfl, ?_⟩
    rw [h3.distinct, h3.orders] at ht'
    exact ht'
  · rw [h2.conditions, h3.conditions]; rfl
  · rw [h2.orders, h3.orders]; rfl
  · rw [h2.groupbys, h3.groupbys]; rfl
  · rw [h2.distinct, h3.distinct]; rfl
  · rw [h2.limit, h3.limit]
    have := limitOf_nonneg cs
    show (if limitOf cs > 0 then limitOf cs else 0) = _
    split <;> omega
  · rw [h2.offset, h3.offset]
    have := offsetOf_nonneg cs
    show (if offsetOf cs > 0 then offsetOf cs else 0) = _
    split <;> omega
  · rw [h2.unions, h3.unions]; rfl

theorem Spec.Made.fields {L : GoLib} {cs : List Call} {b : QB} (h : Made L cs b) : MadeBy cs b := by
  obtain ⟨b0, h1, h2⟩ := h.base
  exact madeBy_of_base h1 h2

theorem made_of_calls {L : GoLib} {cs : List Call} {b : QB} (h : runCalls QB.new cs = .ok b) : Made L cs b := by
  have gen : ∀ (pre : List Call) (b0 : QB), Made L pre b0 → ∀ cs b, runCalls b0 cs = .ok b → Made L (pre ++ cs) b := by
    intro pre b0 h0 cs
    induction cs generalizing pre b0 with
    | nil => intro b h; cases h; rw [List.append_nil]; exact h0
    | cons c cs ih =>
      intro b h
      obtain ⟨b1, h1, h2⟩ := calls_cons h
      have := ih (pre ++ [c]) b1 (.call h0 h1) b h2
      rw [List.append_assoc] at this
      exact this
  exact gen [] QB.new .new cs b h

end Sqlf
