import Verif.Proofs.Reorder
/-!
# Calls for different clauses do not interfere
-/

namespace Sqlf

open Spec

/-- The fields for tables agree. -/
structure TabEq (b b' : QB) : Prop where
  cells : b'.cells = b.cells
  tables : b'.tables = b.tables
  tablesDict : b'.tablesDict = b.tablesDict
  errors : b'.errors = b.errors

theorem TabEq.ensureMain {b b' : QB} (h : TabEq b b') : TabEq (ensureMain b) (ensureMain b') := by
  unfold Sqlf.ensureMain
  rw [h.tables]
  split
  · exact ⟨by rw [h.cells], by rw [h.cells], h.tablesDict, h.errors⟩
  · exact h

theorem TabEq.putRow {b b' : QB} (h : TabEq b b') (n : Str) (r : FromTable) : TabEq (putRow b n r) (putRow b' n r) := by
  unfold Sqlf.putRow
  have : b'.dictGet n = b.dictGet n := by unfold QB.dictGet; rw [h.tablesDict]
  rw [this]
  cases b.dictGet n with
  | some p => exact ⟨by rw [h.cells], h.tables, h.tablesDict, h.errors⟩
  | none => exact ⟨by rw [h.cells], by rw [h.tables, h.cells], by rw [h.tablesDict, h.cells], h.errors⟩

theorem TabEq.apply {b b' b1 b1' : QB} {c : Call} (h : TabEq b b') (h1 : c.apply b = .ok b1)
    (h1' : c.apply b' = .ok b1') : TabEq b1 b1' := by
  rcases call_cases c with ⟨t, rfl⟩ | ⟨⟨t, k, on, opt⟩, hj⟩ | ⟨h2, h3⟩
  · cases h1; cases h1'
    by_cases ht : t.name = []
    · unfold QB.from_
      rw [if_pos ht, if_pos ht]
      exact ⟨h.cells, h.tables, h.tablesDict, by simp [QB.pushError, h.errors]⟩
    · rw [from_eq ht, from_eq ht]
      exact ⟨by rw [h.cells], by rw [h.tables, h.cells], by rw [h.tablesDict, h.cells], h.errors⟩
  · rw [apply_join hj] at h1 h1'
    by_cases ht : t.name = []
    · unfold QB.join at h1 h1'
      rw [if_pos ht] at h1 h1'
      cases h1; cases h1'
      exact ⟨h.cells, h.tables, h.tablesDict, by simp [QB.pushError, h.errors]⟩
    · cases on with
      | none => rw [join_nil ht] at h1; cases h1
      | some on =>
        rw [join_eq ht] at h1 h1'
        cases h1; cases h1'
        exact h.ensureMain.putRow _ _
  · obtain ⟨e1, e2, e3, e4⟩ := apply_tables h2 h3 h1
    obtain ⟨f1, f2, f3, f4⟩ := apply_tables h2 h3 h1'
    exact ⟨by rw [f1, h.cells, e1], by rw [f2, h.tables, e2], by rw [f3, h.tablesDict, e3], by rw [f4, h.errors, e4]⟩

theorem isTableCall_false {c : Call} (h : isTableCall c = false) : (∀ t, c ≠ .from_ t) ∧ joinOf c = none := by
  cases c <;> simp [isTableCall, joinOf] at h ⊢

/-- The tables after calls are those after the calls for tables. -/
theorem calls_tables {b b' b1 : QB} {cs : List Call} (h : TabEq b b') (h1 : runCalls b cs = .ok b1) :
    ∃ b1', runCalls b' (cs.filter isTableCall) = .ok b1' ∧ TabEq b1 b1' := by
  induction cs generalizing b b' with
  | nil => cases h1; exact ⟨b', rfl, h⟩
  | cons c cs ih =>
    obtain ⟨b2, h2, h3⟩ := calls_cons h1
    cases hc : isTableCall c with
    | false =>
      rw [List.filter_cons_of_neg (by simp [hc])]
      obtain ⟨hc1, hc2⟩ := isTableCall_false hc
      obtain ⟨e1, e2, e3, e4⟩ := apply_tables hc1 hc2 h2
      exact ih ⟨h.cells.trans e1.symm, h.tables.trans e2.symm, h.tablesDict.trans e3.symm, h.errors.trans e4.symm⟩ h3
    | true =>
      rw [List.filter_cons_of_pos hc]
      obtain ⟨b2', h2'⟩ := (apply_fine c b').2 ((apply_fine c b).1 ⟨b2, h2⟩)
      obtain ⟨b1', h4, h5⟩ := ih (h.apply h2 h2') h3
      refine ⟨b1', ?_, h5⟩
      unfold runCalls
      rw [h2']
      exact h4

theorem apply_debug {b b' : QB} {c : Call} (h : c.apply b = .ok b') : b'.debug = (b.debug || debugIn [c]) := by
  rcases call_cases c with ⟨t, rfl⟩ | ⟨⟨t, k, on, opt⟩, hj⟩ | ⟨h1, h2⟩
  · cases h; rw [(from_same b t).debug]; simp [debugIn]
  · rw [apply_join hj] at h
    rw [(join_same h).debug]
    cases c <;> simp [joinOf] at hj <;> simp [debugIn]
  · cases c with
    | from_ t => exact absurd rfl (h1 t)
    | whereIn c l =>
      simp only [Call.apply, QB.whereIn, QB.whereInOp] at h
      split at h <;> cases h
      simp [debugIn, QB.where_]
    | whereNotIn c l =>
      simp only [Call.apply, QB.whereNotIn, QB.whereInOp] at h
      split at h <;> cases h
      simp [debugIn, QB.where_]
    | select cs =>
      simp only [Call.apply, QB.select] at h
      split at h <;> cases h <;> simp [debugIn]
    | limit n =>
      simp only [Call.apply, QB.setLimit] at h
      split at h <;> cases h <;> simp [debugIn]
    | offset n =>
      simp only [Call.apply, QB.setOffset] at h
      split at h <;> cases h <;> simp [debugIn]
    | where_ f => cases f <;> cases h <;> simp [debugIn, QB.where_]
    | innerJoin _ _ => simp [joinOf] at h2
    | leftJoin _ _ => simp [joinOf] at h2
    | leftJoinOptional _ _ => simp [joinOf] at h2
    | rightJoin _ _ => simp [joinOf] at h2
    | fullJoin _ _ => simp [joinOf] at h2
    | crossJoin _ => simp [joinOf] at h2
    | distinct => cases h; simp [debugIn, QB.setDistinct]
    | groupBy _ => cases h; simp [debugIn, QB.groupBy]
    | orderBy _ _ => cases h; simp [debugIn, QB.orderBy]
    | union _ => cases h; simp [debugIn, QB.union]
    | with_ _ _ _ => cases h; simp [debugIn, QB.with_]
    | where2 _ _ _ => cases h; simp [debugIn, QB.where2]
    | debug => cases h; simp [debugIn]

theorem debugIn_cons (c : Call) (cs : List Call) : debugIn (c :: cs) = (debugIn [c] || debugIn cs) := by
  cases c <;> simp [debugIn]

theorem calls_debug {b b' : QB} {cs : List Call} (h : runCalls b cs = .ok b') : b'.debug = (b.debug || debugIn cs) := by
  induction cs generalizing b with
  | nil => cases h; simp [debugIn]
  | cons c cs ih =>
    obtain ⟨b1, h1, h2⟩ := calls_cons h
    rw [ih h2, apply_debug h1, debugIn_cons c cs, Bool.or_assoc]

theorem sameRequests_calls {cs cs' : List Call} (h : SameRequests cs cs') {b b' : QB}
    (h1 : runCalls QB.new cs = .ok b) (h2 : runCalls QB.new cs' = .ok b') : b' = b := by
  have q := queryAfter_calls h1
  have q' := queryAfter_calls h2
  obtain ⟨c, t1, t2⟩ := calls_tables (b' := QB.new) ⟨rfl, rfl, rfl, rfl⟩ h1
  obtain ⟨c', t1', t2'⟩ := calls_tables (b' := QB.new) ⟨rfl, rfl, rfl, rfl⟩ h2
  rw [h.tables, t1] at t1'
  cases t1'
  have d := calls_debug h1
  have d' := calls_debug h2
  have e1 : b'.ctes = b.ctes := by rw [q'.ctes, q.ctes, h.ctes]
  have e2 : b'.selects = b.selects := by rw [q'.selects, q.selects, h.selected]
  have e3 : b'.touches = b.touches := by rw [q'.touches, q.touches]
  have e4 : b'.conditions = b.conditions := by rw [q'.conditions, q.conditions, h.conditions]
  have e5 : b'.orders = b.orders := by rw [q'.orders, q.orders, h.ordered]
  have e6 : b'.groupbys = b.groupbys := by rw [q'.groupbys, q.groupbys, h.grouped]
  have e7 : b'.distinct = b.distinct := by rw [q'.distinct, q.distinct, h.distinct]
  have e8 : b'.limit = b.limit := by rw [q'.limit, q.limit, h.limit]
  have e9 : b'.offset = b.offset := by rw [q'.offset, q.offset, h.offset]
  have e10 : b'.unions = b.unions := by rw [q'.unions, q.unions, h.united]
  have e11 : b'.debug = b.debug := by rw [d', d, h.debug]
  have e12 : b'.cells = b.cells := by rw [← t2'.cells, t2.cells]
  have e13 : b'.tables = b.tables := by rw [← t2'.tables, t2.tables]
  have e14 : b'.tablesDict = b.tablesDict := by rw [← t2'.tablesDict, t2.tablesDict]
  have e15 : b'.errors = b.errors := by rw [← t2'.errors, t2.errors]
  cases b; cases b'
  simp_all

end Sqlf
