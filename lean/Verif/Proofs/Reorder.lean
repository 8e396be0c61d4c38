import Verif.Proofs.Sim
import Verif.Proofs.Tables
import Verif.Spec.Outcome
/-!
# Query builders with the same tables
-/

namespace Sqlf

open Spec

/-- The same query with the same tables, kept differently. -/
structure SameTables (b b' : QB) : Prop where
  query : SameQuery b b'
  errors : b'.errors = b.errors
  tables : b'.tableList = b.tableList
  resolve : ∀ n, resolve b' n = resolve b n
  size : b'.tablesDict.length = b.tablesDict.length

theorem depsFromTable_resolve (b : QB) (n : Nat) (dep : Deps) (t : Str) :
    b.depsFromTable (n + 1) dep t = match resolve b t with
      | none => .err (.fromUndefined t)
      | some from_ =>
        if from_.names ∈ dep then .ok dep
        else
          let fts := match from_.fragment with
            | some f => extractTables [.frag f]
            | none => .panic .nilDereference
          match fts with
          | .ok fts => foldOut (b.depsFromTable n) (from_.names :: dep) (fts.filter (· ≠ t))
          | .err e => .err e
          | .panic p => .panic p
          | .oof => .oof := by
  unfold QB.depsFromTable resolve
  cases b.dictGet t with
  | none => rfl
  | some p => rfl

theorem depsFromTable_same {b b' : QB} (h : ∀ n, resolve b' n = resolve b n) (n : Nat) :
    b'.depsFromTable n = b.depsFromTable n := by
  induction n with
  | zero => rfl
  | succ n ih =>
    funext dep t
    rw [depsFromTable_resolve, depsFromTable_resolve, h, ih]

theorem depsFromCte_same {b b' : QB} (h : b'.ctes = b.ctes) (n : Nat) :
    b'.depsFromCte n = b.depsFromCte n := by
  have hg : b'.cteGet = b.cteGet := by
    funext m; unfold QB.cteGet; rw [h]
  induction n with
  | zero => rfl
  | succ n ih =>
    funext dep t
    unfold QB.depsFromCte
    rw [hg, ih]

theorem SameTables.deps {b b' : QB} (h : SameTables b b') : b'.collectDependencies = b.collectDependencies := by
  have hf : b'.depFuel = b.depFuel := by unfold QB.depFuel; rw [h.size, h.query.ctes]
  have hm : b'.markCtes = b.markCtes := by
    funext deps ts
    unfold QB.markCtes
    have hg : b'.cteGet = b.cteGet := by
      funext m; unfold QB.cteGet; rw [h.query.ctes]
    rw [h.query.distinct, hg, depsFromCte_same h.query.ctes, hf]
  have hr : b'.depRoots = b.depRoots := by
    unfold QB.depRoots
    rw [h.query.selects, h.query.touches, h.query.conditions, h.query.groupbys, h.query.orders]
  unfold QB.collectDependencies
  rw [hr, h.tables, depsFromTable_same h.resolve, hf, hm]

theorem sameTables_rel : QBRel SameTables where
  errors h := h.errors
  deps h := h.deps
  ctes h := h.query.ctes
  distinct h := h.query.distinct
  tables h := h.tables
  conditions h := h.query.conditions
  groupbys h := h.query.groupbys
  orders h := h.query.orders
  limit h := h.query.limit
  offset h := h.query.offset
  unions h := h.query.unions
  debug h := h.query.debug
  touches h := h.query.touches
  selects h p := by rw [h.query.selects]
  ordersQ h ts es := {
    query := { h.query with touches := by show _ = _; dsimp only; rw [h.query.touches] }
    errors := by dsimp only; rw [h.errors]
    tables := h.tables
    resolve := h.resolve
    size := h.size }
  selectsQ h p := {
    query := { h.query with selects := by show _ = _; dsimp only; rw [h.query.selects] }
    errors := h.errors
    tables := h.tables
    resolve := h.resolve
    size := h.size }

theorem sameTables_refl (b : QB) : SameTables b b := ⟨.refl b, rfl, rfl, fun _ => rfl, rfl⟩

theorem heapRel_set {Q : QB → QB → Prop} (hr : ∀ b, Q b b) {b b' : QB} (h : Q b b') (heap : List QB) (r : Nat) :
    HeapRel Q (heap.set r b) (heap.set r b') :=
  HeapRel.set ⟨fun _ h => h, fun _ c h => ⟨c, h, hr c⟩⟩ h r

theorem sameTables_returns {b b' : QB} (h : SameTables b b') (L : GoLib) (c : Builder) (style : Style)
    (heap : List QB) (r : Nat) (o : Out (Str × List Val)) :
    Returns L c style (heap.set r b') o ↔ Returns L c style (heap.set r b) o := by
  unfold Returns
  have : ∀ n, buildQuery L n c style (heap.set r b') = buildQuery L n c style (heap.set r b) := fun n =>
    buildQuery_both sameTables_rel L n c style (heapRel_set sameTables_refl h heap r)
  simp only [this]

/-! ## the size of the dictionary -/

theorem step_size {F : Str → Prop} {b b' : QB} {c : Call} (hd : DictOk b) (h : TablesInv F b) (hc : TableStep b b' c) :
    b'.tablesDict.length + b.tables.tail.length
      = b.tablesDict.length + b'.tables.tail.length + (fromGiven c).toList.length := by
  cases hc with
  | none h0 h1 h2 h3 =>
    have : fromGiven c = none := by
      unfold fromGiven; split
      · exact h0
      · rfl
    rw [this, h2, h3]; rfl
  | from_ t ht hc h' =>
    have : fromGiven c = some (fromRow t) := by subst hc; simp [fromGiven, gives, ht]
    rw [this, h', from_eq ht]
    dsimp only
    split
    · rename_i h0
      have : b.tables = [] := List.eq_nil_of_length_eq_zero h0
      rw [this]; rfl
    · cases b.tables with
      | nil => simp at *
      | cons p ps => simp; omega
  | join t k on opt ht hc hg h' =>
    have : fromGiven c = none := by
      unfold fromGiven; split
      · cases hc
      · rfl
    rw [this, h']
    have he : (ensureMain b).tablesDict = b.tablesDict ∧ (ensureMain b).tables ≠ [] ∧
        (ensureMain b).tables.tail = b.tables.tail := by
      unfold ensureMain
      split
      · rename_i h0
        have h0 : b.tables = [] := List.eq_nil_of_length_eq_zero h0
        rw [h0]; simp
      · rename_i h0
        refine ⟨rfl, fun e => h0 (by rw [e]; rfl), rfl⟩
    obtain ⟨h1, h2, h3⟩ := he
    unfold putRow
    cases (ensureMain b).dictGet t.appliedName with
    | some p => simp [h1, h3]
    | none =>
      dsimp only
      rw [h1, List.tail_append_of_ne_nil h2, h3]
      simp; omega

theorem calls_size {F : Str → Prop} {b b' : QB} {cs : List Call} (hd : DictOk b) (hb : TablesInv F b)
    (hF : FromNames F cs) (h : runCalls b cs = .ok b') :
    b'.tablesDict.length + b.tables.tail.length
      = b.tablesDict.length + b'.tables.tail.length + (cs.filterMap fromGiven).length := by
  induction cs generalizing b with
  | nil => cases h; simp
  | cons c cs ih =>
    obtain ⟨b1, h1, h2⟩ := calls_cons h
    have hs := table_step h1
    have i1 := step_size hd hb hs
    have i2 := ih (step_dictOk hd hs) (step_inv hd hb (fun t ht => hF t (by simp at ht; simp [ht])) hs)
      (fun t ht => hF t (List.mem_cons_of_mem _ ht)) h2
    cases hg : fromGiven c with
    | none =>
      rw [hg] at i1
      rw [List.filterMap_cons_none hg]
      simp only [Option.toList_none, List.length_nil] at i1; omega
    | some r =>
      rw [hg] at i1
      rw [List.filterMap_cons_some hg, List.length_cons]
      simp only [Option.toList_some, List.length_singleton] at i1; omega

/-! ## calls that panic -/

/-- The call does not panic. -/
theorem apply_fine (c : Call) (b : QB) : (∃ b', c.apply b = .ok b') ↔ ¬ CallPanics c := by
  rcases call_cases c with ⟨t, rfl⟩ | ⟨⟨t, k, on, opt⟩, hj⟩ | ⟨h1, h2⟩
  · simp [Call.apply, CallPanics, joinOf]
  · rw [apply_join hj]
    have hp : CallPanics c ↔ t.name ≠ [] ∧ on = none := by
      cases c <;> simp [joinOf] at hj <;> obtain ⟨rfl, rfl, rfl, rfl⟩ := hj <;> simp [CallPanics, joinOf] <;>
        (constructor
         · rintro ⟨_, ⟨rfl, h⟩, h2⟩; exact ⟨h2, h⟩
         · rintro ⟨h1, h2⟩; exact ⟨_, ⟨rfl, h2⟩, h1⟩)
    rw [hp]
    by_cases ht : t.name = []
    · unfold QB.join; rw [if_pos ht]; simp [ht]
    · cases on with
      | none => rw [join_nil ht]; simp [ht]
      | some on => rw [join_eq ht]; simp
  · cases c with
    | from_ t => exact absurd rfl (h1 t)
    | whereIn c l =>
      simp only [Call.apply, QB.whereIn, QB.whereInOp, CallPanics]
      cases argsFlatted [l] <;> simp
    | whereNotIn c l =>
      simp only [Call.apply, QB.whereNotIn, QB.whereInOp, CallPanics]
      cases argsFlatted [l] <;> simp
    | innerJoin _ _ => simp [joinOf] at h2
    | leftJoin _ _ => simp [joinOf] at h2
    | leftJoinOptional _ _ => simp [joinOf] at h2
    | rightJoin _ _ => simp [joinOf] at h2
    | fullJoin _ _ => simp [joinOf] at h2
    | crossJoin _ => simp [joinOf] at h2
    | _ => simp [Call.apply, CallPanics, joinOf]

theorem calls_fine (cs : List Call) (b : QB) : (∃ b', runCalls b cs = .ok b') ↔ ∀ c ∈ cs, ¬ CallPanics c := by
  induction cs generalizing b with
  | nil => simp [runCalls]
  | cons c cs ih =>
    constructor
    · rintro ⟨b', h⟩
      obtain ⟨b1, h1, h2⟩ := calls_cons h
      intro d hd
      rcases List.mem_cons.1 hd with rfl | hd
      · exact (apply_fine d b).1 ⟨b1, h1⟩
      · exact (ih b1).1 ⟨b', h2⟩ d hd
    · intro h
      obtain ⟨b1, h1⟩ := (apply_fine c b).2 (h c (by simp))
      obtain ⟨b', h2⟩ := (ih b1).2 fun d hd => h d (List.mem_cons_of_mem _ hd)
      exact ⟨b', by unfold runCalls; rw [h1]; exact h2⟩

/-! ## moving `From` -/

theorem SameQuery.symm {b b' : QB} (h : SameQuery b b') : SameQuery b' b :=
  ⟨h.ctes.symm, h.selects.symm, h.touches.symm, h.conditions.symm, h.orders.symm, h.groupbys.symm,
    h.distinct.symm, h.limit.symm, h.offset.symm, h.unions.symm, h.debug.symm⟩

theorem SameQuery.trans {b b' b'' : QB} (h : SameQuery b b') (h' : SameQuery b' b'') : SameQuery b b'' :=
  ⟨h'.ctes.trans h.ctes, h'.selects.trans h.selects, h'.touches.trans h.touches,
    h'.conditions.trans h.conditions, h'.orders.trans h.orders, h'.groupbys.trans h.groupbys,
    h'.distinct.trans h.distinct, h'.limit.trans h.limit, h'.offset.trans h.offset,
    h'.unions.trans h.unions, h'.debug.trans h.debug⟩

/-- The same call does the same to the same query. -/
theorem apply_same {b b' b1 b1' : QB} {c : Call} (h : SameQuery b b') (he : b'.errors = b.errors)
    (h1 : c.apply b = .ok b1) (h1' : c.apply b' = .ok b1') : SameQuery b1 b1' ∧ b1'.errors = b1.errors := by
  rcases call_cases c with ⟨t, rfl⟩ | ⟨⟨t, k, on, opt⟩, hj⟩ | ⟨h2, h3⟩
  · cases h1; cases h1'
    exact ⟨(from_same b t).symm.trans (h.trans (from_same b' t)), by rw [from_errors, from_errors, he]⟩
  · rw [apply_join hj] at h1 h1'
    exact ⟨(join_same h1).symm.trans (h.trans (join_same h1')), by rw [join_errors h1, join_errors h1', he]⟩
  · refine ⟨?_, by rw [(apply_tables h2 h3 h1).2.2.2, (apply_tables h2 h3 h1').2.2.2, he]⟩
    obtain ⟨e1, e2, e3, e4, e5, e6, e7, e8, e9, e10, e11⟩ := h
    have hdebug : b1'.debug = b1.debug := by
      cases c with
      | from_ t => exact absurd rfl (h2 t)
      | whereIn c l =>
        simp only [Call.apply, QB.whereIn, QB.whereInOp] at h1 h1'
        split at h1 <;> cases h1
        split at h1' <;> cases h1'
        exact e11
      | whereNotIn c l =>
        simp only [Call.apply, QB.whereNotIn, QB.whereInOp] at h1 h1'
        split at h1 <;> cases h1
        split at h1' <;> cases h1'
        exact e11
      | select cs =>
        simp only [Call.apply, QB.select] at h1 h1'
        split at h1 <;> cases h1 <;> split at h1' <;> cases h1' <;> exact e11
      | limit n =>
        simp only [Call.apply, QB.setLimit] at h1 h1'
        split at h1 <;> cases h1 <;> split at h1' <;> cases h1' <;> exact e11
      | offset n =>
        simp only [Call.apply, QB.setOffset] at h1 h1'
        split at h1 <;> cases h1 <;> split at h1' <;> cases h1' <;> exact e11
      | where_ f => cases f <;> cases h1 <;> cases h1' <;> exact e11
      | innerJoin _ _ => simp [joinOf] at h3
      | leftJoin _ _ => simp [joinOf] at h3
      | leftJoinOptional _ _ => simp [joinOf] at h3
      | rightJoin _ _ => simp [joinOf] at h3
      | fullJoin _ _ => simp [joinOf] at h3
      | crossJoin _ => simp [joinOf] at h3
      | debug => cases h1; cases h1'; rfl
      | _ => cases h1; cases h1'; exact e11
    have q := queryAfter_one h1
    have q' := queryAfter_one h1'
    constructor
    · rw [q'.ctes, q.ctes, e1]
    · rw [q'.selects, q.selects, e2]
    · rw [q'.touches, q.touches, e3]
    · rw [q'.conditions, q.conditions, e4]
    · rw [q'.orders, q.orders, e5]
    · rw [q'.groupbys, q.groupbys, e6]
    · rw [q'.distinct, q.distinct, e7]
    · rw [q'.limit, q.limit, e8]
    · rw [q'.offset, q.offset, e9]
    · rw [q'.unions, q.unions, e10]
    · exact hdebug

theorem calls_same {b b' b1 b1' : QB} {cs : List Call} (h : SameQuery b b') (he : b'.errors = b.errors)
    (h1 : runCalls b cs = .ok b1) (h1' : runCalls b' cs = .ok b1') : SameQuery b1 b1' ∧ b1'.errors = b1.errors := by
  induction cs generalizing b b' with
  | nil => cases h1; cases h1'; exact ⟨h, he⟩
  | cons c cs ih =>
    obtain ⟨b2, h2, h3⟩ := calls_cons h1
    obtain ⟨b2', h2', h3'⟩ := calls_cons h1'
    obtain ⟨h4, h5⟩ := apply_same h he h2 h2'
    exact ih h4 h5 h3 h3'

theorem rowOf_append (n : Str) (l l' : List Call) : rowOf n (l ++ l') = match rowOf n l' with
    | some r => some r
    | none => rowOf n l := by
  induction l with
  | nil =>
    rw [List.nil_append]
    cases rowOf n l' <;> rfl
  | cons c l ih =>
    show (match rowOf n (l ++ l') with
      | some r => some r
      | none => match gives c with
        | some r => if r.names.appliedName = n then some r else none
        | none => none) = match rowOf n l' with
          | some r => some r
          | none => match rowOf n l with
            | some r => some r
            | none => match gives c with
              | some r => if r.names.appliedName = n then some r else none
              | none => none
    rw [ih]
    cases rowOf n l' <;> rfl

theorem rowOf_none {n : Str} {l : List Call}
    (h : ∀ c ∈ l, ∀ r, gives c = some r → r.names.appliedName ≠ n) : rowOf n l = none := by
  induction l with
  | nil => rfl
  | cons c l ih =>
    show (match rowOf n l with
      | some r => some r
      | none => match gives c with
        | some r => if r.names.appliedName = n then some r else none
        | none => none) = none
    rw [ih fun d hd => h d (List.mem_cons_of_mem _ hd)]
    cases hg : gives c with
    | none => rfl
    | some r => exact if_neg (h c (by simp) r hg)

theorem from_reorder {t : TableAliased} (ht : t.name ≠ []) {cs1 cs2 : List Call}
    (hone : (cs1 ++ cs2).filterMap fromGiven = [])
    (hname : ∀ r ∈ (cs1 ++ cs2).filterMap joinGiven, r.names.appliedName ≠ t.appliedName) {b b' : QB}
    (hb : runCalls QB.new (cs1 ++ .from_ t :: cs2) = .ok b)
    (hb' : runCalls QB.new (cs1 ++ cs2 ++ [.from_ t]) = .ok b') : SameTables b b' := by
  have hmem1 : ∀ t', Call.from_ t' ∈ cs1 ++ cs2 → t'.name = [] := by
    intro t' h1
    apply Classical.byContradiction
    intro h2
    have := List.filterMap_eq_nil_iff.1 hone _ h1
    simp [fromGiven, gives, h2] at this
  have hF : FromNames (· = t.appliedName) (cs1 ++ .from_ t :: cs2) := by
    intro t' h1 h2
    simp only [List.mem_append, List.mem_cons] at h1
    rcases h1 with h1 | h1 | h1
    · exact absurd (hmem1 t' (by simp [h1])) h2
    · cases h1; rfl
    · exact absurd (hmem1 t' (by simp [h1])) h2
  have hF' : FromNames (· = t.appliedName) (cs1 ++ cs2 ++ [.from_ t]) := by
    intro t' h1 h2
    simp only [List.mem_append, List.mem_singleton] at h1
    rcases h1 with h1 | h1
    · exact absurd (hmem1 t' (by simpa using h1)) h2
    · cases h1; rfl
  have hJ : ∀ c ∈ cs1 ++ .from_ t :: cs2, ∀ r, joinGiven c = some r → ¬ r.names.appliedName = t.appliedName := by
    intro c hc r hr
    simp only [List.mem_append, List.mem_cons] at hc
    rcases hc with hc | rfl | hc
    · exact hname r (List.mem_filterMap.2 ⟨c, by simp [hc], hr⟩)
    · cases hr
    · exact hname r (List.mem_filterMap.2 ⟨c, by simp [hc], hr⟩)
  have hJ' : ∀ c ∈ cs1 ++ cs2 ++ [.from_ t], ∀ r, joinGiven c = some r → ¬ r.names.appliedName = t.appliedName := by
    intro c hc r hr
    simp only [List.mem_append, List.mem_singleton] at hc
    rcases hc with hc | rfl
    · exact hname r (List.mem_filterMap.2 ⟨c, by simpa using hc, hr⟩)
    · cases hr
  have l1 := calls_list (pre := []) dictOk_new (tablesInv_new _) rfl hF hJ hb
  have l2 := calls_list (pre := []) dictOk_new (tablesInv_new _) rfl hF' hJ' hb'
  have hone1 : cs1.filterMap fromGiven = [] ∧ cs2.filterMap fromGiven = [] := by simpa using hone
  have hgt : fromGiven (.from_ t) = some (fromRow t) := by simp [fromGiven, gives, ht]
  have hlist : tablesBy (cs1 ++ cs2 ++ [.from_ t]) = tablesBy (cs1 ++ .from_ t :: cs2) := by
    have hg : gives (.from_ t) = some (fromRow t) := hgt
    unfold tablesBy
    rw [if_neg (by simp [List.filterMap_append, hg]), if_neg (by simp [List.filterMap_append, hg])]
    have : joinGiven (.from_ t) = none := rfl
    simp [mainOf, joinedBy, List.filterMap_append, hone1, hgt, this]
  have htables : b'.tableList = b.tableList := by
    rw [l2, l1]
    exact hlist
  have s1 := calls_size dictOk_new (tablesInv_new _) hF hb
  have s2 := calls_size dictOk_new (tablesInv_new _) hF' hb'
  have hlen : b'.tables.tail.length = b.tables.tail.length := by
    have := congrArg List.length htables
    simp only [QB.tableList, List.length_map] at this
    simp [this]
  have hsame : SameQuery b b' ∧ b'.errors = b.errors := by
    obtain ⟨b1, h1, h2⟩ := calls_append.1 hb
    obtain ⟨b2, h3, h4⟩ := calls_append.1 hb'
    obtain ⟨b3, h5, h6⟩ := calls_append.1 h3
    rw [h1] at h5; cases h5
    obtain ⟨b4, h7, h8⟩ := calls_cons h2
    cases h7
    cases h4
    obtain ⟨h9, h10⟩ := calls_same (from_same b1 t) (by rw [from_errors, if_neg ht, List.append_nil]) h6 h8
    exact ⟨h9.symm.trans (from_same b2 t), by rw [from_errors, if_neg ht, List.append_nil, h10]⟩
  refine ⟨hsame.1, hsame.2, htables, ?_, ?_⟩
  · intro n
    rw [calls_resolve dictOk_new hb, calls_resolve dictOk_new hb']
    have : rowOf n (cs1 ++ cs2 ++ [.from_ t]) = rowOf n (cs1 ++ .from_ t :: cs2) := by
      have hno : ∀ cs, (∀ c ∈ cs, c ∈ cs1 ++ cs2) → rowOf t.appliedName cs = none := by
        intro cs hcs
        apply rowOf_none
        intro c hc r hr
        cases hj : joinGiven c with
        | some r' =>
          have : r' = r := by rw [joinGiven_some hj] at hr; cases hr; rfl
          subst this
          exact hname r' (List.mem_filterMap.2 ⟨c, hcs c hc, hj⟩)
        | none =>
          obtain ⟨t', rfl⟩ := joinGiven_from hr hj
          have := hmem1 t' (hcs _ hc)
          simp [gives, this] at hr
      rw [rowOf_append n (cs1 ++ cs2), rowOf_append n cs1 cs2, rowOf_append n cs1, show (Call.from_ t :: cs2) = [Call.from_ t] ++ cs2 from rfl, rowOf_append n [Call.from_ t]]
      have h1 : rowOf n [Call.from_ t] = if t.appliedName = n then some (fromRow t) else none := by
        simp [rowOf, gives, ht, fromRow]
      by_cases hn : t.appliedName = n
      · subst hn
        rw [h1, if_pos rfl, hno cs2 (fun c hc => by simp [hc])]
      · rw [h1, if_neg hn]
        cases rowOf n cs2 <;> rfl
    rw [this]
  · rw [hlen] at s2
    have : ((cs1 ++ cs2 ++ [Call.from_ t]).filterMap fromGiven).length = ((cs1 ++ Call.from_ t :: cs2).filterMap fromGiven).length := by
      simp [List.filterMap_append, hgt, hone1]
    omega

end Sqlf
