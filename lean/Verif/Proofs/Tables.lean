import Verif.Proofs.Calls
/-!
# The tables of a query builder after a sequence of calls
-/

namespace Sqlf

open Spec

theorem tableAndAlias_eq (t : TableAliased) : QB.tableAndAlias t = tableText t := by
  unfold QB.tableAndAlias tableText
  split <;> simp_all

/-- `From` with a table. -/
theorem from_eq {b : QB} {t : TableAliased} (h : t.name ≠ []) : b.from_ t =
    { b with
      cells := b.cells ++ [fromRow t]
      tables := if b.tables.length = 0 then b.tables ++ [b.cells.length] else b.tables.set 0 b.cells.length
      tablesDict := (t.appliedName, b.cells.length) :: b.tablesDict } := by
  unfold QB.from_
  rw [if_neg h, tableAndAlias_eq]
  rfl

/-- The placeholder of the main table. -/
def blankRow : FromTable := ⟨⟨[], []⟩, none, false⟩

/-- A join puts a placeholder for the main table if there is none yet. -/
def ensureMain (b : QB) : QB :=
  if b.tables.length = 0 then
    { b with cells := b.cells ++ [blankRow], tables := b.tables ++ [b.cells.length] }
  else b

/-- A join of a table. -/
def putRow (b : QB) (n : Str) (r : FromTable) : QB :=
  match b.dictGet n with
  | some ptr => { b with cells := b.cells.set ptr r }
  | none => { b with
      cells := b.cells ++ [r]
      tables := b.tables ++ [b.cells.length]
      tablesDict := (n, b.cells.length) :: b.tablesDict }

theorem join_eq {b : QB} {k : Str} {t : TableAliased} {on : Fragment} {opt : Bool} (h : t.name ≠ []) :
    b.join k t (some on) opt = .ok (putRow (ensureMain b) t.appliedName (joinRow t k on opt)) := by
  unfold QB.join
  rw [if_neg h]
  dsimp only
  rw [tableAndAlias_eq]
  unfold putRow
  change (match (ensureMain b).dictGet t.appliedName with
    | some ptr => _
    | none => _) = _
  cases (ensureMain b).dictGet t.appliedName <;> rfl

theorem join_nil {b : QB} {k : Str} {t : TableAliased} {opt : Bool} (h : t.name ≠ []) :
    b.join k t none opt = .panic .nilDereference := by
  unfold QB.join
  rw [if_neg h]

/-! ## references -/

theorem dictGet_cons (b : QB) (n m : Str) (p : Nat) (cells : List FromTable) (ts : List Nat) :
    ({ b with cells := cells, tables := ts, tablesDict := (n, p) :: b.tablesDict } : QB).dictGet m
      = if n = m then some p else b.dictGet m := by
  unfold QB.dictGet
  simp only [List.find?_cons]
  by_cases h : n = m <;> simp [h]

/-- Pointers of the dictionary lead to tables of that name. -/
structure DictOk (b : QB) : Prop where
  lt : ∀ n p, b.dictGet n = some p → p < b.cells.length
  name : ∀ n p, b.dictGet n = some p → (b.cell p).names.appliedName = n

theorem dictOk_new : DictOk QB.new := ⟨fun n p h => by simp [QB.new, QB.dictGet] at h,
  fun n p h => by simp [QB.new, QB.dictGet] at h⟩

theorem cell_append {b : QB} {r : FromTable} {p : Nat} {ts : List Nat} {d : List (Str × Nat)} :
    ({ b with cells := b.cells ++ [r], tables := ts, tablesDict := d } : QB).cell p
      = if p = b.cells.length then r else b.cell p := by
  simp only [QB.cell, List.getD_eq_getElem?_getD, List.getElem?_append]
  by_cases h : p < b.cells.length
  · rw [if_pos h, if_neg (by omega)]
  · rw [if_neg h]
    by_cases h2 : p = b.cells.length
    · simp [h2]
    · rw [if_neg h2, List.getElem?_eq_none (by simp; omega), List.getElem?_eq_none (by omega)]

theorem cell_set {b : QB} {r : FromTable} {p q : Nat} (hq : q < b.cells.length) :
    ({ b with cells := b.cells.set q r } : QB).cell p = if p = q then r else b.cell p := by
  simp only [QB.cell, List.getD_eq_getElem?_getD, List.getElem?_set]
  by_cases h : q = p
  · subst h; simp [hq]
  · rw [if_neg h, if_neg (fun e => h e.symm)]

theorem ensureMain_dict (b : QB) (n : Str) : (ensureMain b).dictGet n = b.dictGet n := by
  unfold ensureMain; split <;> rfl

theorem ensureMain_cell {b : QB} {p : Nat} (h : p < b.cells.length) :
    (ensureMain b).cell p = b.cell p := by
  unfold ensureMain
  split
  · show ({ b with cells := b.cells ++ [blankRow], tables := b.tables ++ [b.cells.length], tablesDict := b.tablesDict } : QB).cell p = _
    rw [cell_append, if_neg (by omega)]
  · rfl

theorem ensureMain_length (b : QB) : b.cells.length ≤ (ensureMain b).cells.length := by
  unfold ensureMain; split <;> simp

theorem ensureMain_dictOk {b : QB} (h : DictOk b) : DictOk (ensureMain b) := by
  constructor
  · intro n p hp
    rw [ensureMain_dict] at hp
    exact Nat.lt_of_lt_of_le (h.lt n p hp) (ensureMain_length b)
  · intro n p hp
    rw [ensureMain_dict] at hp
    rw [ensureMain_cell (h.lt n p hp)]
    exact h.name n p hp

theorem ensureMain_resolve {b : QB} (h : DictOk b) (n : Str) : resolve (ensureMain b) n = resolve b n := by
  unfold resolve
  rw [ensureMain_dict]
  cases hp : b.dictGet n with
  | none => rfl
  | some p => simp [ensureMain_cell (h.lt n p hp)]

theorem from_dictOk {b : QB} (h : DictOk b) {t : TableAliased} (ht : t.name ≠ []) : DictOk (b.from_ t) := by
  rw [from_eq ht]
  constructor
  · intro n p hp
    rw [dictGet_cons] at hp
    split at hp
    · cases hp; simp
    · have := h.lt n p hp; simp; omega
  · intro n p hp
    rw [dictGet_cons] at hp
    rw [cell_append]
    split at hp
    · rename_i hn; cases hp; simpa [fromRow] using hn
    · have := h.lt n p hp
      rw [if_neg (by omega)]
      exact h.name n p hp

theorem from_resolve {b : QB} (h : DictOk b) {t : TableAliased} (ht : t.name ≠ []) (n : Str) :
    resolve (b.from_ t) n = if t.appliedName = n then some (fromRow t) else resolve b n := by
  rw [from_eq ht]
  unfold resolve
  rw [dictGet_cons]
  by_cases hn : t.appliedName = n
  · rw [if_pos hn, if_pos hn, Option.map_some, cell_append, if_pos rfl]
  · rw [if_neg hn, if_neg hn]
    cases hp : b.dictGet n with
    | none => rfl
    | some p =>
      have := h.lt n p hp
      rw [Option.map_some, Option.map_some, cell_append, if_neg (by omega)]

theorem put_dictOk {b : QB} (h : DictOk b) {n : Str} {r : FromTable} (hr : r.names.appliedName = n) :
    DictOk (putRow b n r) := by
  unfold putRow
  cases hp : b.dictGet n with
  | some p =>
    have hl := h.lt n p hp
    constructor
    · intro m q hq
      have := h.lt m q hq
      simpa using this
    · intro m q hq
      have hq : b.dictGet m = some q := hq
      show (QB.cell { b with cells := b.cells.set p r } q).names.appliedName = m
      rw [cell_set hl]
      split
      · rename_i e; subst e
        have h1 := h.name n q hp
        have h2 := h.name m q hq
        rw [hr, ← h1, h2]
      · exact h.name m q hq
  | none =>
    constructor
    · intro m q hq
      rw [dictGet_cons] at hq
      split at hq
      · cases hq; simp
      · have := h.lt m q hq; simp; omega
    · intro m q hq
      rw [dictGet_cons] at hq
      rw [cell_append]
      split at hq
      · rename_i e; cases hq; rw [if_pos rfl, hr, e]
      · have := h.lt m q hq
        rw [if_neg (by omega)]
        exact h.name m q hq

theorem put_resolve {b : QB} (h : DictOk b) {n : Str} {r : FromTable} (m : Str) :
    resolve (putRow b n r) m = if n = m then some r else resolve b m := by
  unfold putRow
  cases hp : b.dictGet n with
  | some p =>
    have hl := h.lt n p hp
    show (b.dictGet m).map (QB.cell { b with cells := b.cells.set p r }) = _
    by_cases hn : n = m
    · subst hn
      rw [hp, if_pos rfl, Option.map_some, cell_set hl, if_pos rfl]
    · rw [if_neg hn]
      unfold resolve
      cases hq : b.dictGet m with
      | none => rfl
      | some q =>
        rw [Option.map_some, Option.map_some, cell_set hl]
        rw [if_neg]
        intro e; subst e
        exact hn ((h.name n q hp).symm.trans (h.name m q hq))
  | none =>
    unfold resolve
    rw [dictGet_cons]
    by_cases hn : n = m
    · rw [if_pos hn, if_pos hn, Option.map_some, cell_append, if_pos rfl]
    · rw [if_neg hn, if_neg hn]
      cases hq : b.dictGet m with
      | none => rfl
      | some q =>
        have := h.lt m q hq
        rw [Option.map_some, Option.map_some, cell_append, if_neg (by omega)]

/-- The effect of one call on the tables. -/
inductive TableStep (b b' : QB) (c : Call) : Prop where
  | none (h : gives c = none) (h1 : b'.cells = b.cells) (h2 : b'.tables = b.tables)
      (h3 : b'.tablesDict = b.tablesDict)
  | from_ (t : TableAliased) (ht : t.name ≠ []) (hc : c = .from_ t) (h : b' = b.from_ t)
  | join (t : TableAliased) (k : Str) (on : Fragment) (opt : Bool) (ht : t.name ≠ [])
      (hc : joinOf c = some (t, k, some on, opt)) (hg : gives c = some (joinRow t k on opt))
      (h : b' = putRow (ensureMain b) t.appliedName (joinRow t k on opt))

theorem gives_join {c : Call} {t : TableAliased} {k : Str} {on : Option Fragment} {opt : Bool}
    (h : joinOf c = some (t, k, on, opt)) : gives c = on.bind fun on =>
      if t.name = [] then none else some (joinRow t k on opt) := by
  cases c <;> simp [joinOf] at h <;> obtain ⟨rfl, rfl, rfl, rfl⟩ := h <;> first | rfl | (rename_i on; cases on <;> rfl)

theorem gives_other {c : Call} (h1 : ∀ t, c ≠ .from_ t) (h : joinOf c = none) : gives c = none := by
  cases c <;> first | exact absurd rfl (h1 _) | simp [gives, h]

theorem table_step {b b' : QB} {c : Call} (h : c.apply b = .ok b') : TableStep b b' c := by
  rcases call_cases c with ⟨t, rfl⟩ | ⟨⟨t, k, on, opt⟩, hj⟩ | ⟨h1, h2⟩
  · cases h
    by_cases ht : t.name = []
    · refine .none (by simp [gives, ht]) ?_ ?_ ?_ <;> (unfold QB.from_; rw [if_pos ht]; rfl)
    · exact .from_ t ht rfl rfl
  · rw [apply_join hj] at h
    by_cases ht : t.name = []
    · have : b' = b.pushError (.builder (lit "join table name is empty")) := by
        unfold QB.join at h; rw [if_pos ht] at h; cases h; rfl
      subst this
      refine .none ?_ rfl rfl rfl
      rw [gives_join hj]
      cases on <;> simp [ht]
    · cases on with
      | none => rw [join_nil ht] at h; cases h
      | some on =>
        rw [join_eq ht] at h
        cases h
        refine .join t k on opt ht hj ?_ rfl
        rw [gives_join hj]
        simp [ht]
  · obtain ⟨h3, h4, h5, _⟩ := apply_tables h1 h2 h
    exact .none (gives_other h1 h2) h3 h4 h5

theorem dictOk_congr {b b' : QB} (h : DictOk b) (h1 : b'.cells = b.cells) (h3 : b'.tablesDict = b.tablesDict) :
    DictOk b' := by
  constructor
  · intro n p hp
    rw [h1]
    exact h.lt n p (by unfold QB.dictGet at hp ⊢; rw [h3] at hp; exact hp)
  · intro n p hp
    unfold QB.cell
    rw [h1]
    exact h.name n p (by unfold QB.dictGet at hp ⊢; rw [h3] at hp; exact hp)

theorem resolve_congr {b b' : QB} (h1 : b'.cells = b.cells) (h3 : b'.tablesDict = b.tablesDict) (n : Str) :
    resolve b' n = resolve b n := by
  unfold resolve QB.dictGet QB.cell
  rw [h1, h3]

theorem step_dictOk {b b' : QB} {c : Call} (h : DictOk b) (hc : TableStep b b' c) : DictOk b' := by
  cases hc with
  | none _ h1 h2 h3 => exact dictOk_congr h h1 h3
  | from_ t ht hc h' => rw [h']; exact from_dictOk h ht
  | join t k on opt ht hc hg h' => rw [h']; exact put_dictOk (ensureMain_dictOk h) rfl

theorem step_resolve {b b' : QB} {c : Call} (h : DictOk b) (hc : TableStep b b' c) (n : Str) :
    resolve b' n = match gives c with
      | some r => if r.names.appliedName = n then some r else resolve b n
      | none => resolve b n := by
  cases hc with
  | none hg h1 h2 h3 => rw [hg]; exact resolve_congr h1 h3 n
  | from_ t ht hc h' =>
    rw [h', hc, from_resolve h ht]
    simp [gives, ht, fromRow]
  | join t k on opt ht hc hg h' =>
    rw [h', hg, put_resolve (ensureMain_dictOk h), ensureMain_resolve h]
    simp [joinRow]

theorem calls_dictOk {b b' : QB} {cs : List Call} (hb : DictOk b) (h : runCalls b cs = .ok b') : DictOk b' := by
  induction cs generalizing b with
  | nil => cases h; exact hb
  | cons c cs ih =>
    obtain ⟨b1, h1, h2⟩ := calls_cons h
    exact ih (step_dictOk hb (table_step h1)) h2

theorem calls_resolve {b b' : QB} {cs : List Call} (hb : DictOk b) (h : runCalls b cs = .ok b') (n : Str) :
    resolve b' n = match rowOf n cs with
      | some r => some r
      | none => resolve b n := by
  induction cs generalizing b with
  | nil => cases h; rfl
  | cons c cs ih =>
    obtain ⟨b1, h1, h2⟩ := calls_cons h
    rw [ih (step_dictOk hb (table_step h1)) h2, step_resolve hb (table_step h1)]
    rw [show rowOf n (c :: cs) = match rowOf n cs with
      | some r => some r
      | none => match gives c with
        | some r => if r.names.appliedName = n then some r else none
        | none => none from rfl]
    cases rowOf n cs with
    | some r => rfl
    | none =>
      dsimp only
      cases gives c with
      | none => rfl
      | some r =>
        dsimp only
        by_cases hr : r.names.appliedName = n
        · rw [if_pos hr, if_pos hr]
        · rw [if_neg hr, if_neg hr]

/-! ## the list of tables -/

/-- The names of the tables given to `From` are among `F`. -/
def FromNames (F : Str → Prop) (cs : List Call) : Prop := ∀ t, .from_ t ∈ cs → t.name ≠ [] → F t.appliedName

/-- The pointers of the table list.  `F` are names given to `From`. -/
structure TablesOk (F : Str → Prop) (b : QB) (p0 : Nat) (ps : List Nat) : Prop where
  tables : b.tables = p0 :: ps
  main : p0 ∉ ps
  lt0 : p0 < b.cells.length
  lt : ∀ q ∈ ps, q < b.cells.length
  nodup : ps.Nodup
  get : ∀ n p, ¬ F n → b.dictGet n = some p → p ∈ ps
  put : ∀ q ∈ ps, ¬ F (b.cell q).names.appliedName → b.dictGet (b.cell q).names.appliedName = some q
  name0 : F (b.cell p0).names.appliedName ∨ b.cell p0 = blankRow

/-- No table, or tables in order. -/
def TablesInv (F : Str → Prop) (b : QB) : Prop :=
  (b.tables = [] ∧ ∀ n, b.dictGet n = none) ∨ ∃ p0 ps, TablesOk F b p0 ps

theorem tablesInv_new (F : Str → Prop) : TablesInv F QB.new := .inl ⟨rfl, fun _ => rfl⟩

theorem tablesInv_congr {F : Str → Prop} {b b' : QB} (h : TablesInv F b) (h1 : b'.cells = b.cells)
    (h2 : b'.tables = b.tables) (h3 : b'.tablesDict = b.tablesDict) : TablesInv F b' := by
  have hd : ∀ n, b'.dictGet n = b.dictGet n := fun n => by unfold QB.dictGet; rw [h3]
  have hc : ∀ n, b'.cell n = b.cell n := fun n => by unfold QB.cell; rw [h1]
  rcases h with ⟨h4, h5⟩ | ⟨p0, ps, h⟩
  · exact .inl ⟨by rw [h2, h4], fun n => by rw [hd, h5]⟩
  · refine .inr ⟨p0, ps, by rw [h2, h.tables], h.main, by rw [h1]; exact h.lt0, by rw [h1]; exact h.lt,
      h.nodup, fun n p => by rw [hd]; exact h.get n p, fun q => by rw [hc, hd]; exact h.put q, by rw [hc]; exact h.name0⟩

theorem from_ok {F : Str → Prop} {b : QB} (hd : DictOk b) (h : TablesInv F b) {t : TableAliased} (ht : t.name ≠ [])
    (hF : F t.appliedName) : ∃ p0 ps, TablesOk F (b.from_ t) p0 ps ∧ (b.from_ t).cell p0 = fromRow t ∧
      ps.map (b.from_ t).cell = b.tableList.tail := by
  rw [from_eq ht]
  rcases h with ⟨h4, h5⟩ | ⟨p0, ps, h⟩
  · refine ⟨b.cells.length, [], ?_, ?_, ?_⟩
    · constructor
      · simp [h4]
      · simp
      · simp
      · simp
      · simp
      · intro n p hn hp
        rw [dictGet_cons] at hp
        split at hp
        · rename_i e; exact absurd (e ▸ hF) hn
        · rw [h5] at hp; cases hp
      · simp
      · rw [cell_append, if_pos rfl]; exact .inl hF
    · rw [cell_append, if_pos rfl]
    · simp [QB.tableList, h4]
  · refine ⟨b.cells.length, ps, ?_, ?_, ?_⟩
    · constructor
      · simp [h.tables]
      · intro hm; have := h.lt _ hm; omega
      · simp
      · intro q hq; have := h.lt q hq; simp; omega
      · exact h.nodup
      · intro n p hn hp
        rw [dictGet_cons] at hp
        split at hp
        · rename_i e; exact absurd (e ▸ hF) hn
        · exact h.get n p hn hp
      · intro q hq
        rw [cell_append, if_neg (by have := h.lt q hq; omega)]
        intro hn
        rw [dictGet_cons, if_neg (fun (e : t.appliedName = (b.cell q).names.appliedName) => hn (e ▸ hF))]
        exact h.put q hq hn
      · rw [cell_append, if_pos rfl]; exact .inl hF
    · rw [cell_append, if_pos rfl]
    · simp only [QB.tableList, h.tables, List.map_cons, List.tail_cons]
      apply List.map_congr_left
      intro q hq
      rw [cell_append, if_neg (by have := h.lt q hq; omega)]

theorem ensureMain_ok {F : Str → Prop} {b : QB} (h : TablesInv F b) : ∃ p0 ps, TablesOk F (ensureMain b) p0 ps ∧
    (ensureMain b).cell p0 = b.tableList.head?.getD blankRow ∧ ps.map (ensureMain b).cell = b.tableList.tail := by
  rcases h with ⟨h4, h5⟩ | ⟨p0, ps, h⟩
  · have he : ensureMain b = { b with cells := b.cells ++ [blankRow], tables := [b.cells.length], tablesDict := b.tablesDict } := by
      unfold ensureMain
      rw [if_pos (by rw [h4]; rfl), h4]; rfl
    refine ⟨b.cells.length, [], ?_, ?_, ?_⟩
    · constructor
      · rw [he]
      · simp
      · rw [he]; simp
      · simp
      · simp
      · intro n p hn hp
        rw [ensureMain_dict, h5] at hp; cases hp
      · simp
      · right
        rw [he, cell_append, if_pos rfl]
    · rw [he, cell_append, if_pos rfl]; simp [QB.tableList, h4]
    · simp [QB.tableList, h4]
  · have he : ensureMain b = b := by
      unfold ensureMain
      rw [if_neg (by simp [h.tables])]
    rw [he]
    exact ⟨p0, ps, h, by simp [QB.tableList, h.tables], by simp [QB.tableList, h.tables]⟩

/-- Replace the row with the same name, or append the row. -/
theorem put_ok {F : Str → Prop} {b : QB} (hd : DictOk b) {p0 : Nat} {ps : List Nat} (h : TablesOk F b p0 ps)
    {n : Str} {r : FromTable} (hr : r.names.appliedName = n) :
    ∃ ps', TablesOk F (putRow b n r) p0 ps' ∧
      (¬ F n → n ≠ [] → (putRow b n r).cell p0 = b.cell p0 ∧
        ps'.map (putRow b n r).cell = putIn (ps.map b.cell) r) := by
  unfold putRow
  cases hp : b.dictGet n with
  | some p =>
    have hl := hd.lt n p hp
    have hname : ∀ q, (QB.cell { b with cells := b.cells.set p r } q).names.appliedName = (b.cell q).names.appliedName := by
      intro q
      rw [cell_set hl]
      split
      · rename_i e; rw [hr, e]; exact (hd.name n p hp).symm
      · rfl
    refine ⟨ps, ?_, ?_⟩
    · constructor
      · exact h.tables
      · exact h.main
      · simpa using h.lt0
      · simpa using h.lt
      · exact h.nodup
      · exact h.get
      · intro q hq
        show ¬ F (QB.cell { b with cells := b.cells.set p r } q).names.appliedName →
          b.dictGet (QB.cell { b with cells := b.cells.set p r } q).names.appliedName = some q
        rw [hname]; exact h.put q hq
      · show F (QB.cell { b with cells := b.cells.set p r } p0).names.appliedName ∨
          QB.cell { b with cells := b.cells.set p r } p0 = blankRow
        rw [hname]
        rcases h.name0 with h0 | h0
        · exact .inl h0
        · by_cases hF : F n
          · by_cases e : p0 = p
            · left; rw [e, hd.name n p hp]; exact hF
            · right; rw [cell_set hl, if_neg e, h0]
          · right
            rw [cell_set hl, if_neg, h0]
            intro e; exact h.main (e ▸ h.get n p hF hp)
    · intro hF hn
      have hm := h.get n p hF hp
      refine ⟨?_, ?_⟩
      · show QB.cell { b with cells := b.cells.set p r } p0 = _
        rw [cell_set hl, if_neg (fun (e : p0 = p) => h.main (e ▸ hm))]
      · have hany : (ps.map b.cell).any (fun x => x.names.appliedName = r.names.appliedName) = true := by
          simp only [List.any_map, List.any_eq_true, Function.comp]
          exact ⟨p, hm, by simp [hr, hd.name n p hp]⟩
        unfold putIn
        rw [if_pos hany, List.map_map]
        apply List.map_congr_left
        intro q hq
        show QB.cell { b with cells := b.cells.set p r } q = _
        rw [cell_set hl]
        simp only [Function.comp]
        by_cases e : q = p
        · subst e
          rw [if_pos rfl, if_pos (by rw [hr]; exact hd.name n q hp)]
        · rw [if_neg e, if_neg]
          intro e2
          rw [hr] at e2
          have := h.put q hq (by rw [e2]; exact hF)
          rw [e2, hp] at this
          cases this
          exact e rfl
  | none =>
    have hlast : ∀ q ∈ ps, ({ b with cells := b.cells ++ [r], tables := b.tables ++ [b.cells.length], tablesDict := (n, b.cells.length) :: b.tablesDict } : QB).cell q = b.cell q := by
      intro q hq
      rw [cell_append, if_neg (by have := h.lt q hq; omega)]
    refine ⟨ps ++ [b.cells.length], ?_, ?_⟩
    · constructor
      · simp [h.tables]
      · have := h.lt0
        simp only [List.mem_append, List.mem_singleton, not_or]
        exact ⟨h.main, by omega⟩
      · have := h.lt0; simp; omega
      · intro q hq
        simp only [List.mem_append, List.mem_singleton] at hq
        simp only [List.length_append, List.length_singleton]
        rcases hq with hq | hq
        · have := h.lt q hq; omega
        · omega
      · rw [List.nodup_append]
        refine ⟨h.nodup, by simp, ?_⟩
        intro a ha c hc
        have := h.lt a ha
        simp only [List.mem_singleton] at hc
        omega
      · intro m p hm hp2
        rw [dictGet_cons] at hp2
        split at hp2
        · cases hp2; simp
        · exact List.mem_append_left _ (h.get m p hm hp2)
      · intro q hq
        simp only [List.mem_append, List.mem_singleton] at hq
        rcases hq with hq | hq
        · rw [hlast q hq]
          intro hF
          have := h.put q hq hF
          rw [dictGet_cons, if_neg, this]
          intro e
          rw [← e, hp] at this
          cases this
        · subst hq
          rw [cell_append, if_pos rfl, hr]
          intro _
          rw [dictGet_cons, if_pos rfl]
      · have := h.lt0
        rw [cell_append, if_neg (by omega)]
        exact h.name0
    · intro hF hn
      have := h.lt0
      refine ⟨by rw [cell_append, if_neg (by omega)], ?_⟩
      have hany : (ps.map b.cell).any (fun x => x.names.appliedName = r.names.appliedName) = false := by
        rw [List.any_eq_false]
        intro x hx
        simp only [List.mem_map] at hx
        obtain ⟨q, hq, rfl⟩ := hx
        simp only [decide_eq_true_eq]
        intro e
        rw [hr] at e
        have := h.put q hq (by rw [e]; exact hF)
        rw [e, hp] at this
        cases this
      unfold putIn
      rw [if_neg (by rw [hany]; simp), List.map_append, List.map_cons, List.map_nil, cell_append, if_pos rfl]
      congr 1
      apply List.map_congr_left
      exact hlast

/-- The rows of a join call. -/
theorem joinGiven_some {c : Call} {r : FromTable} (h : joinGiven c = some r) : gives c = some r := by
  cases c <;> simp [joinGiven] at h <;> exact h

theorem joinGiven_none {c : Call} (h : gives c = none) : joinGiven c = none := by
  cases c <;> simp [joinGiven] <;> exact h

theorem joinGiven_from {c : Call} {r : FromTable} (h : gives c = some r) (hj : joinGiven c = none) :
    ∃ t, c = .from_ t := by
  cases c <;> simp [joinGiven] at hj <;> first | exact ⟨_, rfl⟩ | (rw [h] at hj; cases hj)

/-- The invariant of the table list. -/
structure TableRows (F : Str → Prop) (b : QB) (cs : List Call) : Prop where
  inv : TablesInv F b
  list : b.tableList = tablesBy cs

theorem appliedName_ne {t : TableAliased} (h : t.name ≠ []) : t.appliedName ≠ [] := by
  unfold TableAliased.appliedName
  split <;> assumption

theorem ok_list {F : Str → Prop} {b : QB} {p0 : Nat} {ps : List Nat} (h : TablesOk F b p0 ps) :
    b.tableList = b.cell p0 :: ps.map b.cell := by
  simp [QB.tableList, h.tables]

theorem step_inv {F : Str → Prop} {b b' : QB} {c : Call} (hd : DictOk b) (h : TablesInv F b) (hF : FromNames F [c])
    (hc : TableStep b b' c) : TablesInv F b' := by
  cases hc with
  | none _ h1 h2 h3 => exact tablesInv_congr h h1 h2 h3
  | from_ t ht hc h' =>
    obtain ⟨p0, ps, h1, _⟩ := from_ok hd h ht (hF t (by simp [hc]) ht)
    rw [h']; exact .inr ⟨p0, ps, h1⟩
  | join t k on opt ht hc hg h' =>
    obtain ⟨p0, ps, h1, _⟩ := ensureMain_ok h
    obtain ⟨ps', h2, _⟩ := put_ok (ensureMain_dictOk hd) h1 (r := joinRow t k on opt) rfl
    rw [h']; exact .inr ⟨p0, ps', h2⟩

theorem calls_inv {F : Str → Prop} {b b' : QB} {cs : List Call} (hd : DictOk b) (hb : TablesInv F b)
    (hF : FromNames F cs) (h : runCalls b cs = .ok b') : TablesInv F b' := by
  induction cs generalizing b with
  | nil => cases h; exact hb
  | cons c cs ih =>
    obtain ⟨b1, h1, h2⟩ := calls_cons h
    have hs := table_step h1
    exact ih (step_dictOk hd hs) (step_inv hd hb (fun t ht => hF t (by simp at ht; simp [ht])) hs)
      (fun t ht => hF t (List.mem_cons_of_mem _ ht)) h2

/-- A join under a name that `From` does not use. -/
theorem step_join_list {F : Str → Prop} {b b' : QB} {c : Call} {r : FromTable} (hd : DictOk b) (h : TablesInv F b)
    (hc : TableStep b b' c) (hg : joinGiven c = some r) (hF : ¬ F r.names.appliedName) :
    b'.tableList = b.tableList.head?.getD blankRow :: putIn b.tableList.tail r := by
  cases hc with
  | none h0 h1 h2 h3 =>
    rw [joinGiven_none h0] at hg; cases hg
  | from_ t ht hc h' => subst hc; cases hg
  | join t k on opt ht hc hg2 h' =>
    rw [joinGiven_some hg] at hg2
    cases hg2
    obtain ⟨p0, ps, h1, h3, h4⟩ := ensureMain_ok h
    obtain ⟨ps', h2, h5⟩ := put_ok (ensureMain_dictOk hd) h1 (r := joinRow t k on opt) rfl
    obtain ⟨h6, h7⟩ := h5 hF (appliedName_ne ht)
    rw [h']
    change TablesOk F (putRow (ensureMain b) t.appliedName (joinRow t k on opt)) p0 ps' at h2
    rw [ok_list h2]
    change (putRow (ensureMain b) t.appliedName (joinRow t k on opt)).cell p0 = _ at h6
    change ps'.map (putRow (ensureMain b) t.appliedName (joinRow t k on opt)).cell = _ at h7
    rw [h6, h7, h3, h4]

theorem step_from_list {F : Str → Prop} {b b' : QB} {c : Call} {t : TableAliased} (hd : DictOk b) (h : TablesInv F b)
    (hc : TableStep b b' c) (hct : c = .from_ t) (ht : t.name ≠ []) (hF : F t.appliedName) :
    b'.tableList = fromRow t :: b.tableList.tail := by
  cases hc with
  | none h0 h1 h2 h3 => subst hct; simp [gives, ht] at h0
  | from_ t' ht' hc h' =>
    rw [hc] at hct
    cases hct
    obtain ⟨p0, ps, h1, h3, h4⟩ := from_ok hd h ht hF
    rw [h', ok_list h1, h3, h4]
  | join t k on opt ht hc hg2 h' => subst hct; simp [joinOf] at hc

theorem tablesBy_eq (cs : List Call) : tablesBy cs = if cs.filterMap gives = [] then [] else
    (mainOf cs).getD blankRow :: joinedBy cs := rfl

theorem calls_list {F : Str → Prop} {b b' : QB} {pre cs : List Call} (hd : DictOk b) (hb : TablesInv F b)
    (hl : b.tableList = tablesBy pre)
    (hF : FromNames F cs) (hJ : ∀ c ∈ cs, ∀ r, joinGiven c = some r → ¬ F r.names.appliedName)
    (h : runCalls b cs = .ok b') : b'.tableList = tablesBy (pre ++ cs) := by
  induction cs generalizing b pre with
  | nil => cases h; simpa using hl
  | cons c cs ih =>
    obtain ⟨b1, h1, h2⟩ := calls_cons h
    have hs := table_step h1
    have hFc : FromNames F [c] := fun t ht => hF t (by simp at ht; simp [ht])
    have := ih (pre := pre ++ [c]) (step_dictOk hd hs) (step_inv hd hb hFc hs) ?_
      (fun t ht => hF t (List.mem_cons_of_mem _ ht)) (fun c hc => hJ c (List.mem_cons_of_mem _ hc)) h2
    · simpa using this
    have hhead : b.tableList.head?.getD blankRow = (mainOf pre).getD blankRow := by
      rw [hl, tablesBy_eq]
      split
      · rename_i he
        have : mainOf pre = none := by
          unfold mainOf
          rw [List.getLast?_eq_none_iff, List.filterMap_eq_nil_iff]
          intro c hc
          have := List.filterMap_eq_nil_iff.1 he c hc
          unfold fromGiven
          split
          · exact this
          · rfl
        rw [this]; rfl
      · rfl
    have htail : b.tableList.tail = joinedBy pre := by
      rw [hl, tablesBy_eq]
      split
      · rename_i he
        have : pre.filterMap joinGiven = [] := by
          rw [List.filterMap_eq_nil_iff]
          intro c hc
          have := List.filterMap_eq_nil_iff.1 he c hc
          exact joinGiven_none this
        unfold joinedBy
        rw [this]; rfl
      · rfl
    rw [tablesBy_eq]
    cases hg : gives c with
    | none =>
      have hsame : b1.tableList = b.tableList := by
        cases hs with
        | none h0 h1 h2 h3 => unfold QB.tableList QB.cell; rw [h1, h2]
        | from_ t ht hc h' => subst hc; simp [gives, ht] at hg
        | join t k on opt ht hc hg2 h' => rw [hg2] at hg; cases hg
      have h3 : fromGiven c = none := by
        unfold fromGiven; split
        · exact hg
        · rfl
      have h4 : joinGiven c = none := joinGiven_none hg
      rw [hsame, hl, tablesBy_eq]
      simp [mainOf, joinedBy, List.filterMap_append, hg, h3, h4]
    | some r =>
      rw [if_neg (by simp [List.filterMap_append, hg])]
      cases hj : joinGiven c with
      | none =>
        obtain ⟨t, hct⟩ : ∃ t, c = .from_ t := joinGiven_from hg hj
        have ht : t.name ≠ [] := by
          intro e; subst hct; simp [gives, e] at hg
        rw [step_from_list hd hb hs hct ht (hF t (by simp [hct]) ht), htail]
        have hm : mainOf (pre ++ [c]) = some (fromRow t) := by
          subst hct
          simp [mainOf, List.filterMap_append, fromGiven, gives, ht]
        have hj : joinedBy (pre ++ [c]) = joinedBy pre := by
          simp [joinedBy, List.filterMap_append, hj]
        rw [hm, hj]; rfl
      | some r' =>
        rw [step_join_list hd hb hs hj (hJ c (by simp) r' hj), hhead, htail]
        have hf : fromGiven c = none := by
          unfold fromGiven; split
          · cases hj
          · rfl
        simp [mainOf, joinedBy, List.filterMap_append, hf, hj]

/-- A name that a join gave is in the dictionary. -/
theorem calls_known {b b' : QB} {cs : List Call} (hd : DictOk b) (h : runCalls b cs = .ok b') {n : Str}
    (hn : ∃ c ∈ cs, ∃ r, gives c = some r ∧ r.names.appliedName = n) : ∃ r, resolve b' n = some r := by
  rw [calls_resolve hd h]
  have : rowOf n cs ≠ none := by
    obtain ⟨c, hc, r, hr, hrn⟩ := hn
    clear h
    induction cs with
    | nil => cases hc
    | cons d cs ih =>
      show (match rowOf n cs with
        | some r => some r
        | none => match gives d with
          | some r => if r.names.appliedName = n then some r else none
          | none => none) ≠ none
      cases h1 : rowOf n cs with
      | some r => simp
      | none =>
        rcases List.mem_cons.1 hc with rfl | hc
        · dsimp only
          rw [hr]
          dsimp only
          rw [if_pos hrn]
          simp
        · exact absurd h1 (ih hc)
  cases h1 : rowOf n cs with
  | none => exact absurd h1 this
  | some r => exact ⟨r, rfl⟩

theorem join_again {F : Str → Prop} {b b' : QB} {cs : List Call} {c : Call} {r : FromTable} (h : runCalls QB.new cs = .ok b)
    (hc : c.apply b = .ok b') (hr : joinGiven c = some r) (hF : FromNames F cs) (hnF : ¬ F r.names.appliedName)
    (hagain : ∃ x ∈ cs.filterMap joinGiven, x.names.appliedName = r.names.appliedName) :
    b'.tableList = b.tableList.map fun x =>
      if x.names.appliedName = r.names.appliedName then r else x := by
  have hd := calls_dictOk dictOk_new h
  have hi := calls_inv dictOk_new (tablesInv_new F) hF h
  rw [step_join_list hd hi (table_step hc) hr hnF]
  obtain ⟨x, hx, hxn⟩ := hagain
  obtain ⟨d, hdm, hdx⟩ := List.mem_filterMap.1 hx
  obtain ⟨row, hrow⟩ := calls_known dictOk_new h ⟨d, hdm, x, joinGiven_some hdx, hxn⟩
  obtain ⟨p, hp⟩ : ∃ p, b.dictGet r.names.appliedName = some p := by
    unfold resolve at hrow
    cases hp : b.dictGet r.names.appliedName with
    | none => rw [hp] at hrow; cases hrow
    | some p => exact ⟨p, rfl⟩
  rcases hi with ⟨_, h5⟩ | ⟨p0, ps, hok⟩
  · rw [h5] at hp; cases hp
  · have hm := hok.get _ p hnF hp
    have hn0 : (b.cell p0).names.appliedName ≠ r.names.appliedName := by
      rcases hok.name0 with h0 | h0
      · intro e; rw [e] at h0; exact hnF h0
      · rw [h0]
        have hne : r.names.appliedName ≠ [] := by
          have hg := joinGiven_some hr
          cases table_step hc with
          | none h0 _ _ _ => rw [h0] at hg; cases hg
          | from_ t ht hc h' => subst hc; cases hr
          | join t k on opt ht hc hg2 h' => rw [hg2] at hg; cases hg; exact appliedName_ne ht
        intro e
        exact hne (e.symm.trans rfl)
    rw [ok_list hok]
    simp only [List.head?_cons, Option.getD_some, List.tail_cons, List.map_cons]
    rw [if_neg hn0]
    congr 1
    unfold putIn
    rw [if_pos]
    simp only [List.any_map, List.any_eq_true, Function.comp]
    exact ⟨p, hm, by simp [hd.name _ p hp]⟩

end Sqlf
