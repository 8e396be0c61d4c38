import Verif.Spec.Sqlb
/-!
# The state of a query builder after a sequence of calls
-/

namespace Sqlf

open Spec

/-- The fields that joins and `From` do not touch. -/
structure SameQuery (b b' : QB) : Prop where
  ctes : b'.ctes = b.ctes
  selects : b'.selects = b.selects
  touches : b'.touches = b.touches
  conditions : b'.conditions = b.conditions
  orders : b'.orders = b.orders
  groupbys : b'.groupbys = b.groupbys
  distinct : b'.distinct = b.distinct
  limit : b'.limit = b.limit
  offset : b'.offset = b.offset
  unions : b'.unions = b.unions
  debug : b'.debug = b.debug

theorem SameQuery.refl (b : QB) : SameQuery b b := ⟨rfl, rfl, rfl, rfl, rfl, rfl, rfl, rfl, rfl, rfl, rfl⟩

theorem from_same (b : QB) (t : TableAliased) : SameQuery b (b.from_ t) := by
  unfold QB.from_
  split <;> exact ⟨rfl, rfl, rfl, rfl, rfl, rfl, rfl, rfl, rfl, rfl, rfl⟩

theorem from_errors (b : QB) (t : TableAliased) :
    (b.from_ t).errors = b.errors ++ if t.name = [] then [.builder (lit "from table is empty")] else [] := by
  unfold QB.from_
  split
  · rfl
  · simp

theorem join_same {b b' : QB} {k : Str} {t : TableAliased} {on : Option Fragment} {opt : Bool}
    (h : b.join k t on opt = .ok b') : SameQuery b b' := by
  unfold QB.join at h
  split at h
  · cases h; exact ⟨rfl, rfl, rfl, rfl, rfl, rfl, rfl, rfl, rfl, rfl, rfl⟩
  · dsimp only at h
    cases on with
    | none => cases h
    | some on =>
      dsimp only at h
      split at h <;> cases h <;> split <;> exact ⟨rfl, rfl, rfl, rfl, rfl, rfl, rfl, rfl, rfl, rfl, rfl⟩

theorem join_errors {b b' : QB} {k : Str} {t : TableAliased} {on : Option Fragment} {opt : Bool}
    (h : b.join k t on opt = .ok b') :
    b'.errors = b.errors ++ if t.name = [] then [.builder (lit "join table name is empty")] else [] := by
  unfold QB.join at h
  split at h
  · rename_i hn; cases h; rw [if_pos hn]; rfl
  · rename_i hn
    rw [if_neg hn]
    dsimp only at h
    cases on with
    | none => cases h
    | some on =>
      dsimp only at h
      split at h <;> cases h <;> split <;> simp

/-- A join call. -/
theorem apply_join {c : Call} {t : TableAliased} {k : Str} {on : Option Fragment} {opt : Bool}
    (h : joinOf c = some (t, k, on, opt)) (b : QB) : c.apply b = b.join k t on opt := by
  cases c <;> simp [joinOf] at h <;> obtain ⟨rfl, rfl, rfl, rfl⟩ := h <;> rfl

/-- The kinds of calls. -/
theorem call_cases (c : Call) : (∃ t, c = .from_ t) ∨ (∃ j, joinOf c = some j) ∨
    ((∀ t, c ≠ .from_ t) ∧ joinOf c = none) := by
  cases c <;> simp [joinOf]

/-- Calls that are neither `From` nor joins leave the tables alone. -/
theorem apply_tables {c : Call} (h1 : ∀ t, c ≠ .from_ t) (h2 : joinOf c = none) {b b' : QB}
    (h : c.apply b = .ok b') : b'.cells = b.cells ∧ b'.tables = b.tables ∧
      b'.tablesDict = b.tablesDict ∧ b'.errors = b.errors := by
  cases c with
  | from_ t => exact absurd rfl (h1 t)
  | whereIn c l =>
    simp only [Call.apply, QB.whereIn, QB.whereInOp] at h
    split at h <;> cases h
    exact ⟨rfl, rfl, rfl, rfl⟩
  | whereNotIn c l =>
    simp only [Call.apply, QB.whereNotIn, QB.whereInOp] at h
    split at h <;> cases h
    exact ⟨rfl, rfl, rfl, rfl⟩
  | select cs =>
    simp only [Call.apply, QB.select] at h
    split at h <;> cases h <;> exact ⟨rfl, rfl, rfl, rfl⟩
  | limit n =>
    simp only [Call.apply, QB.setLimit] at h
    split at h <;> cases h <;> exact ⟨rfl, rfl, rfl, rfl⟩
  | offset n =>
    simp only [Call.apply, QB.setOffset] at h
    split at h <;> cases h <;> exact ⟨rfl, rfl, rfl, rfl⟩
  | where_ f => cases f <;> cases h <;> exact ⟨rfl, rfl, rfl, rfl⟩
  | innerJoin _ _ => simp [joinOf] at h2
  | leftJoin _ _ => simp [joinOf] at h2
  | leftJoinOptional _ _ => simp [joinOf] at h2
  | rightJoin _ _ => simp [joinOf] at h2
  | fullJoin _ _ => simp [joinOf] at h2
  | crossJoin _ => simp [joinOf] at h2
  | distinct => cases h; exact ⟨rfl, rfl, rfl, rfl⟩
  | groupBy _ => cases h; exact ⟨rfl, rfl, rfl, rfl⟩
  | orderBy _ _ => cases h; exact ⟨rfl, rfl, rfl, rfl⟩
  | union _ => cases h; exact ⟨rfl, rfl, rfl, rfl⟩
  | with_ _ _ _ => cases h; exact ⟨rfl, rfl, rfl, rfl⟩
  | where2 _ _ _ => cases h; exact ⟨rfl, rfl, rfl, rfl⟩
  | debug => cases h; exact ⟨rfl, rfl, rfl, rfl⟩

/-- What a sequence of calls makes of the fields of a query. -/
structure QueryAfter (b : QB) (cs : List Call) (b' : QB) : Prop where
  ctes : b'.ctes = b.ctes ++ declaredBy cs
  selects : b'.selects = if selectedBy cs = [] then b.selects else b.selects.withFragments (selectedBy cs)
  touches : b'.touches = b.touches
  conditions : b'.conditions = b.conditions.appendFragments ((conditionsOf cs).map .frag)
  orders : b'.orders = b.orders ++ orderedBy cs
  groupbys : b'.groupbys = b.groupbys.appendFragments (groupedBy cs)
  distinct : b'.distinct = (b.distinct || distinctIn cs)
  limit : b'.limit = if limitOf cs > 0 then limitOf cs else b.limit
  offset : b'.offset = if offsetOf cs > 0 then offsetOf cs else b.offset
  unions : b'.unions = b.unions ++ unitedWith cs

theorem appendFragments_nil (f : Fragment) : f.appendFragments [] = f := by
  cases f; simp [Fragment.appendFragments]

theorem appendFragments_append (f : Fragment) (a b : List Builder) :
    (f.appendFragments a).appendFragments b = f.appendFragments (a ++ b) := by
  cases f; simp [Fragment.appendFragments]

theorem withFragments_withFragments (f : Fragment) (a b : List Builder) :
    (f.withFragments a).withFragments b = f.withFragments b := by
  cases f; rfl

theorem SameQuery.after {b b' : QB} {c : Call} (h : SameQuery b b') (h1 : (∃ t, c = .from_ t) ∨ ∃ j, joinOf c = some j) :
    QueryAfter b [c] b' := by
  have : declaredBy [c] = [] ∧ selectedBy [c] = [] ∧ conditionsOf [c] = [] ∧ orderedBy [c] = [] ∧
      groupedBy [c] = [] ∧ distinctIn [c] = false ∧ limitOf [c] = 0 ∧ offsetOf [c] = 0 ∧ unitedWith [c] = [] := by
    rcases h1 with ⟨t, rfl⟩ | ⟨j, hj⟩
    · exact ⟨rfl, rfl, rfl, rfl, rfl, rfl, rfl, rfl, rfl⟩
    · cases c <;> simp [joinOf] at hj <;> exact ⟨rfl, rfl, rfl, rfl, rfl, rfl, rfl, rfl, rfl⟩
  obtain ⟨h1, h2, h3, h4, h5, h6, h7, h8, h9⟩ := this
  constructor
  · rw [h1, h.ctes, List.append_nil]
  · rw [h2, h.selects, if_pos rfl]
  · exact h.touches
  · rw [h3, h.conditions]; exact (appendFragments_nil _).symm
  · rw [h4, h.orders, List.append_nil]
  · rw [h5, h.groupbys, appendFragments_nil]
  · rw [h6, h.distinct, Bool.or_false]
  · rw [h7, h.limit]; rfl
  · rw [h8, h.offset]; rfl
  · rw [h9, h.unions, List.append_nil]

theorem queryAfter_one {b b' : QB} {c : Call} (h : c.apply b = .ok b') : QueryAfter b [c] b' := by
  rcases call_cases c with ⟨t, rfl⟩ | ⟨⟨t, k, on, opt⟩, hj⟩ | ⟨h1, h2⟩
  · cases h
    exact (from_same b t).after (.inl ⟨t, rfl⟩)
  · rw [apply_join hj] at h
    exact (join_same h).after (.inr ⟨_, hj⟩)
  · cases c with
    | from_ t => exact absurd rfl (h1 t)
    | whereIn c l =>
      simp only [Call.apply, QB.whereIn, QB.whereInOp] at h
      split at h <;> cases h
      rename_i vs hv
      constructor <;> simp [declaredBy, selectedBy, orderedBy, groupedBy, distinctIn, limitOf, offsetOf,
        unitedWith, appendFragments_nil, QB.where_, conditionsOf, conditionOf, hv, Fragment.F,
        Fragment.withFragments, Fragment.withArgs]
      rfl
    | whereNotIn c l =>
      simp only [Call.apply, QB.whereNotIn, QB.whereInOp] at h
      split at h <;> cases h
      rename_i vs hv
      constructor <;> simp [declaredBy, selectedBy, orderedBy, groupedBy, distinctIn, limitOf, offsetOf,
        unitedWith, appendFragments_nil, QB.where_, conditionsOf, conditionOf, hv, Fragment.F,
        Fragment.withFragments, Fragment.withArgs]
      rfl
    | select cs =>
      simp only [Call.apply, QB.select] at h
      split at h <;> cases h <;> rename_i hl <;>
      · constructor <;> simp [declaredBy, selectedBy, orderedBy, groupedBy, distinctIn, limitOf, offsetOf,
          unitedWith, appendFragments_nil, conditionsOf, conditionOf] <;> simp_all
    | limit n =>
      simp only [Call.apply, QB.setLimit] at h
      split at h <;> cases h <;> rename_i hl <;>
      · constructor <;> simp [declaredBy, selectedBy, orderedBy, groupedBy, distinctIn, limitOf, offsetOf,
          unitedWith, appendFragments_nil, conditionsOf, conditionOf, hl]
    | offset n =>
      simp only [Call.apply, QB.setOffset] at h
      split at h <;> cases h <;> rename_i hl <;>
      · constructor <;> simp [declaredBy, selectedBy, orderedBy, groupedBy, distinctIn, limitOf, offsetOf,
          unitedWith, appendFragments_nil, conditionsOf, conditionOf, hl]
    | where_ f =>
      cases f <;> cases h <;>
      · constructor <;> simp [declaredBy, selectedBy, orderedBy, groupedBy, distinctIn, limitOf, offsetOf,
          unitedWith, appendFragments_nil, conditionsOf, conditionOf, QB.where_]
    | innerJoin _ _ => simp [joinOf] at h2
    | leftJoin _ _ => simp [joinOf] at h2
    | leftJoinOptional _ _ => simp [joinOf] at h2
    | rightJoin _ _ => simp [joinOf] at h2
    | fullJoin _ _ => simp [joinOf] at h2
    | crossJoin _ => simp [joinOf] at h2
    | where2 _ _ _ =>
      cases h
      constructor <;> simp [declaredBy, selectedBy, orderedBy, groupedBy, distinctIn, limitOf, offsetOf,
        unitedWith, appendFragments_nil, conditionsOf, conditionOf, QB.where2, Fragment.F,
        Fragment.withFragments, Fragment.withArgs]
    | _ =>
      cases h
      constructor <;> simp [declaredBy, selectedBy, orderedBy, groupedBy, distinctIn, limitOf, offsetOf,
        unitedWith, appendFragments_nil, conditionsOf, conditionOf, QB.setDistinct, QB.groupBy, QB.orderBy,
        QB.union, QB.with_]

theorem declaredBy_cons (c : Call) (cs : List Call) : declaredBy (c :: cs) = declaredBy [c] ++ declaredBy cs := by
  cases c <;> simp [declaredBy]
theorem orderedBy_cons (c : Call) (cs : List Call) : orderedBy (c :: cs) = orderedBy [c] ++ orderedBy cs := by
  cases c <;> simp [orderedBy]
theorem groupedBy_cons (c : Call) (cs : List Call) : groupedBy (c :: cs) = groupedBy [c] ++ groupedBy cs := by
  cases c <;> simp [groupedBy]
theorem unitedWith_cons (c : Call) (cs : List Call) : unitedWith (c :: cs) = unitedWith [c] ++ unitedWith cs := by
  cases c <;> simp [unitedWith]
theorem distinctIn_cons (c : Call) (cs : List Call) : distinctIn (c :: cs) = (distinctIn [c] || distinctIn cs) := by
  cases c <;> simp [distinctIn]
theorem selectedBy_cons (c : Call) (cs : List Call) :
    selectedBy (c :: cs) = if selectedBy cs = [] then selectedBy [c] else selectedBy cs := by
  cases c <;> simp [selectedBy]
theorem limitOf_cons (c : Call) (cs : List Call) :
    limitOf (c :: cs) = if limitOf cs > 0 then limitOf cs else limitOf [c] := by
  have : ∀ cs, 0 ≤ limitOf cs := by
    intro cs
    induction cs with
    | nil => simp [limitOf]
    | cons c cs ih => cases c <;> simp [limitOf] <;> (try split) <;> (try split) <;> omega
  have h := this cs
  cases c <;> simp [limitOf] <;> omega
theorem offsetOf_cons (c : Call) (cs : List Call) :
    offsetOf (c :: cs) = if offsetOf cs > 0 then offsetOf cs else offsetOf [c] := by
  have : ∀ cs, 0 ≤ offsetOf cs := by
    intro cs
    induction cs with
    | nil => simp [offsetOf]
    | cons c cs ih => cases c <;> simp [offsetOf] <;> (try split) <;> (try split) <;> omega
  have h := this cs
  cases c <;> simp [offsetOf] <;> omega

theorem calls_cons {b b' : QB} {c : Call} {cs : List Call} (h : runCalls b (c :: cs) = .ok b') :
    ∃ b1, c.apply b = .ok b1 ∧ runCalls b1 cs = .ok b' := by
  unfold runCalls at h
  cases hc : c.apply b with
  | ok b1 => rw [hc] at h; exact ⟨b1, rfl, h⟩
  | err e => rw [hc] at h; cases h
  | panic p => rw [hc] at h; cases h
  | oof => rw [hc] at h; cases h

theorem calls_append {b b' : QB} {cs cs' : List Call} :
    runCalls b (cs ++ cs') = .ok b' ↔ ∃ b1, runCalls b cs = .ok b1 ∧ runCalls b1 cs' = .ok b' := by
  induction cs generalizing b with
  | nil => exact ⟨fun h => ⟨b, rfl, h⟩, fun ⟨b1, h1, h2⟩ => by cases h1; exact h2⟩
  | cons c cs ih =>
    constructor
    · intro h
      obtain ⟨b1, h1, h2⟩ := calls_cons h
      obtain ⟨b2, h3, h4⟩ := ih.1 h2
      exact ⟨b2, by unfold runCalls; rw [h1]; exact h3, h4⟩
    · rintro ⟨b1, h1, h2⟩
      obtain ⟨b2, h3, h4⟩ := calls_cons h1
      have := ih.2 ⟨b1, h4, h2⟩
      show runCalls b (c :: (cs ++ cs')) = _
      unfold runCalls; rw [h3]; exact this

theorem queryAfter_calls {b b' : QB} {cs : List Call} (h : runCalls b cs = .ok b') : QueryAfter b cs b' := by
  induction cs generalizing b with
  | nil =>
    cases h
    constructor <;> simp [declaredBy, selectedBy, orderedBy, groupedBy, distinctIn, limitOf, offsetOf,
      unitedWith, appendFragments_nil, conditionsOf]
  | cons c cs ih =>
    obtain ⟨b1, h1, h2⟩ := calls_cons h
    have i1 := queryAfter_one h1
    have i2 := ih h2
    constructor
    · rw [i2.ctes, i1.ctes, declaredBy_cons c cs, List.append_assoc]
    · rw [i2.selects, i1.selects, selectedBy_cons c cs]
      by_cases h : selectedBy cs = []
      · simp [h]
      · simp only [h, if_false]
        split
        · rfl
        · exact withFragments_withFragments ..
    · rw [i2.touches, i1.touches]
    · rw [i2.conditions, i1.conditions, appendFragments_append]
      simp [conditionsOf]
    · rw [i2.orders, i1.orders, orderedBy_cons c cs, List.append_assoc]
    · rw [i2.groupbys, i1.groupbys, appendFragments_append, groupedBy_cons c cs]
    · rw [i2.distinct, i1.distinct, distinctIn_cons c cs, Bool.or_assoc]
    · rw [i2.limit, i1.limit, limitOf_cons c cs]; split <;> simp_all
    · rw [i2.offset, i1.offset, offsetOf_cons c cs]; split <;> simp_all
    · rw [i2.unions, i1.unions, unitedWith_cons c cs, List.append_assoc]

/-- Errors are never removed. -/
theorem calls_errors {b b' : QB} {cs : List Call} (h : runCalls b cs = .ok b') : b.errors <+: b'.errors := by
  induction cs generalizing b with
  | nil => cases h; exact List.prefix_refl _
  | cons c cs ih =>
    obtain ⟨b1, h1, h2⟩ := calls_cons h
    refine List.IsPrefix.trans ?_ (ih h2)
    rcases call_cases c with ⟨t, rfl⟩ | ⟨⟨t, k, on, opt⟩, hj⟩ | ⟨h3, h4⟩
    · cases h1
      rw [from_errors]; exact List.prefix_append ..
    · rw [apply_join hj] at h1
      rw [join_errors h1]; exact List.prefix_append ..
    · rw [(apply_tables h3 h4 h1).2.2.2]; exact List.prefix_refl _

/-- The errors of the calls, one for every call with an empty table name. -/
theorem calls_complaints {b b' : QB} {cs : List Call} (h : runCalls b cs = .ok b') :
    b'.errors = b.errors ++ (cs.filterMap complaint).map .builder := by
  induction cs generalizing b with
  | nil => cases h; simp
  | cons c cs ih =>
    obtain ⟨b1, h1, h2⟩ := calls_cons h
    rw [ih h2]
    have : b1.errors = b.errors ++ ([c].filterMap complaint).map .builder := by
      rcases call_cases c with ⟨t, rfl⟩ | ⟨⟨t, k, on, opt⟩, hj⟩ | ⟨h5, h6⟩
      · cases h1
        rw [from_errors]
        by_cases ht : t.name = [] <;> simp [complaint, ht]
      · rw [apply_join hj] at h1
        have hc : complaint c = if t.name = [] then some (lit "join table name is empty") else none := by
          cases c <;> simp [joinOf] at hj <;> obtain ⟨rfl, rfl, rfl, rfl⟩ := hj <;> rfl
        rw [join_errors h1]
        by_cases ht : t.name = [] <;> simp [hc, ht]
      · have hc : complaint c = none := by
          cases c <;> first | rfl | exact absurd rfl (h5 _) | cases h6
        rw [(apply_tables h5 h6 h1).2.2.2]
        simp [hc]
    rw [this, List.append_assoc, ← List.map_append, ← List.filterMap_append]
    rfl

theorem anyError_report (es : List Err) : anyError es = .collected (report (es.map errorText)) := by
  unfold anyError report
  rw [List.map_map]
  rfl

theorem anyError_calls {b : QB} {cs : List Call} (h : runCalls QB.new cs = .ok b) :
    anyError b.errors = .collected (report (cs.filterMap complaint)) := by
  rw [anyError_report, calls_complaints h]
  congr 2
  show List.map errorText ([] ++ _) = _
  rw [List.nil_append, List.map_map]
  exact List.map_id _

end Sqlf
