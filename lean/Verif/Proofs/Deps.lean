import Verif.Proofs.Dfs
/-!
# The dependencies of a query
-/

namespace Sqlf

open Spec

/-! ## table references -/

theorem mem_collectTable {x t : Str} {acc : List Str} : x ∈ collectTable t acc ↔ x ∈ acc ∨ x = t := by
  unfold collectTable
  split
  · rename_i h
    constructor
    · exact fun h => .inl h
    · rintro (h1 | rfl)
      · exact h1
      · exact h
  · simp

/-- What the extraction of tables from a builder does. -/
structure Extracts (fine : Bool) (new : List Str) (acc : List Str) (o : Option (List Str)) : Prop where
  ok : fine = true → ∃ acc', o = some acc' ∧ ∀ x, x ∈ acc' ↔ x ∈ acc ∨ x ∈ new
  nil : fine = false → o = none

theorem extracts_one (t : Str) (acc : List Str) : Extracts true [t] acc (some (collectTable t acc)) :=
  ⟨fun _ => ⟨_, rfl, fun x => by rw [mem_collectTable, List.mem_singleton]⟩, fun h => by cases h⟩

theorem extracts_nothing (acc : List Str) : Extracts true [] acc (some acc) :=
  ⟨fun _ => ⟨_, rfl, fun x => by simp⟩, fun h => by cases h⟩

mutual
theorem extractB_spec : ∀ (b : Builder) (acc : List Str), Extracts (noNil b) (tableRefs b) acc (extractB b acc)
  | .nil, acc => extracts_nothing acc
  | .nilFrag, acc => ⟨fun h => by simp [noNil] at h, fun _ => rfl⟩
  | .frag (.mk _ _ fs _ _), acc => by
    simp only [noNil, tableRefs, extractB]; exact extractL_spec fs acc
  | .nilColumn, acc => extracts_nothing acc
  | .columnNilFrag t, acc => by
    simp only [noNil, tableRefs, extractB]
    by_cases h : t = []
    · simp only [h, ne_eq, not_true, decide_false, if_true, if_false]
      exact ⟨fun h => Bool.noConfusion h, fun _ => rfl⟩
    · simp only [h, ne_eq, not_false_iff, decide_true, if_false, if_true]
      exact extracts_one t acc
  | .column t (.mk _ _ fs _ _), acc => by
    simp only [noNil, tableRefs, extractB]
    by_cases h : t = []
    · simp only [h, ne_eq, not_true, if_true, if_false]; exact extractL_spec fs acc
    · simp only [h, ne_eq, not_false_iff, if_false, if_true]; exact extracts_one t acc
  | .table t, acc => extracts_one t acc
  | .aliased n a, acc => extracts_one _ acc
  | .nilQb, acc => extracts_nothing acc
  | .qb _, acc => extracts_nothing acc
  | .custom _, acc => extracts_nothing acc
theorem extractL_spec : ∀ (bs : List Builder) (acc : List Str), Extracts (noNilL bs) (tableRefsL bs) acc (extractL bs acc)
  | [], acc => extracts_nothing acc
  | b :: bs, acc => by
    simp only [noNilL, tableRefsL, extractL]
    have h1 := extractB_spec b acc
    constructor
    · intro h
      rw [Bool.and_eq_true] at h
      obtain ⟨acc1, h2, h3⟩ := h1.ok h.1
      obtain ⟨acc2, h4, h5⟩ := (extractL_spec bs acc1).ok h.2
      rw [h2]
      refine ⟨acc2, h4, fun x => ?_⟩
      rw [h5, h3, List.mem_append, or_assoc]
    · intro h
      rw [Bool.and_eq_false_iff] at h
      cases hb : noNil b with
      | false => rw [h1.nil hb]
      | true =>
        obtain ⟨acc1, h2, h3⟩ := h1.ok hb
        rw [h2]
        rw [hb] at h
        exact (extractL_spec bs acc1).nil (by simpa using h)
end

theorem extractTables_ok {bs : List Builder} {ts : List Str} (h : extractTables bs = .ok ts) :
    noNilL bs = true ∧ ∀ x, x ∈ ts ↔ x ∈ tableRefsL bs := by
  unfold extractTables at h
  have hs := extractL_spec bs []
  cases hn : noNilL bs with
  | false => rw [hs.nil hn] at h; cases h
  | true =>
    obtain ⟨acc, h1, h2⟩ := hs.ok hn
    rw [h1] at h
    cases h
    exact ⟨rfl, fun x => by rw [h2]; simp⟩

theorem extractTables_of {bs : List Builder} (h : noNilL bs = true) : ∃ ts, extractTables bs = .ok ts ∧
    ∀ x, x ∈ ts ↔ x ∈ tableRefsL bs := by
  obtain ⟨acc, h1, h2⟩ := (extractL_spec bs []).ok h
  exact ⟨acc, by unfold extractTables; rw [h1], fun x => by rw [h2]; simp⟩

theorem extractTables_nil {bs : List Builder} (h : noNilL bs = false) :
    extractTables bs = .panic .nilDereference := by
  unfold extractTables
  rw [(extractL_spec bs []).nil h]

theorem tableRefsL_append (l l' : List Builder) : tableRefsL (l ++ l') = tableRefsL l ++ tableRefsL l' := by
  induction l with
  | nil => rfl
  | cons b l ih => simp [tableRefsL, ih]

theorem depRoots_refs (b : QB) : tableRefsL b.depRoots = rootRefs b := by
  unfold QB.depRoots rootRefs
  rw [tableRefsL_append]

/-! ## the search over tables -/

def tableKey (b : QB) (t : Str) : Out TableAliased :=
  match resolve b t with
  | none => .err (.fromUndefined t)
  | some r => .ok r.names

/-- The tables the ON condition of a row refers to. -/
def rowTables (r : FromTable) : Out (List Str) :=
  match r.fragment with
  | some f => extractTables [.frag f]
  | none => .panic .nilDereference

def tableSucc (b : QB) (t : Str) : Out (List Str) :=
  match resolve b t with
  | none => .ok []
  | some r =>
    match rowTables r with
    | .ok fts => .ok (fts.filter (· ≠ t))
    | .err e => .err e
    | .panic p => .panic p
    | .oof => .oof

theorem depsFromTable_dfs (b : QB) (n : Nat) : b.depsFromTable n = dfs (tableKey b) (tableSucc b) n := by
  induction n with
  | zero => rfl
  | succ n ih =>
    funext dep t
    rw [depsFromTable_resolve]
    unfold dfs tableKey tableSucc
    cases hr : resolve b t with
    | none => rfl
    | some r =>
      dsimp only
      split
      · rfl
      · rw [ih]
        show (match rowTables r with
          | .ok fts => foldOut (dfs (tableKey b) (tableSucc b) n) (r.names :: dep) (fts.filter (· ≠ t))
          | .err e => .err e
          | .panic p => .panic p
          | .oof => .oof) = _
        cases rowTables r <;> rfl

theorem rowTables_not_oof (r : FromTable) : rowTables r ≠ .oof := by
  unfold rowTables extractTables
  split
  · split <;> simp
  · simp

theorem tableSucc_not_oof (b : QB) (t : Str) : tableSucc b t ≠ .oof := by
  unfold tableSucc
  split
  · simp
  · rename_i r _
    have := rowTables_not_oof r
    cases h : rowTables r with
    | oof => exact absurd h this
    | _ => simp

theorem tableKey_not_oof (b : QB) (t : Str) : tableKey b t ≠ .oof := by
  unfold tableKey; split <;> simp

theorem tableKey_ok {b : QB} {t : Str} {k : TableAliased} :
    tableKey b t = .ok k ↔ ∃ r, resolve b t = some r ∧ r.names = k := by
  unfold tableKey
  cases resolve b t with
  | none => simp
  | some r => simp

theorem tableSucc_ok {b : QB} {t : Str} {l : List Str} {r : FromTable} (hr : resolve b t = some r)
    (h : tableSucc b t = .ok l) : (∀ u, u ∈ rowRefs r → u = t ∨ u ∈ l) ∧ ∀ u ∈ l, u ∈ rowRefs r := by
  unfold tableSucc at h
  rw [hr] at h
  dsimp only at h
  cases h1 : rowTables r with
  | ok fts =>
    rw [h1] at h
    cases h
    unfold rowTables at h1
    unfold rowRefs
    cases hf : r.fragment with
    | none => rw [hf] at h1; cases h1
    | some f =>
      rw [hf] at h1
      dsimp only at h1 ⊢
      have h2 := (extractTables_ok h1).2
      have h3 : tableRefsL [.frag f] = tableRefs (.frag f) := by simp [tableRefsL]
      rw [h3] at h2
      constructor
      · intro u hu
        by_cases e : u = t
        · exact .inl e
        · exact .inr (List.mem_filter.2 ⟨(h2 u).2 hu, by simp [e]⟩)
      · intro u hu
        exact (h2 u).1 (List.mem_filter.1 hu).1
  | err e => rw [h1] at h; cases h
  | panic p => rw [h1] at h; cases h
  | oof => rw [h1] at h; cases h

/-- The names that keys can have. -/
def tableKeys (b : QB) : List TableAliased := b.tablesDict.map fun p => (b.cell p.2).names

theorem tableKey_mem {b : QB} {t : Str} {k : TableAliased} (h : tableKey b t = .ok k) : k ∈ tableKeys b := by
  obtain ⟨r, h1, rfl⟩ := tableKey_ok.1 h
  unfold resolve QB.dictGet at h1
  simp only [Option.map_map, Option.map_eq_some_iff] at h1
  obtain ⟨p, h2, h3⟩ := h1
  unfold tableKeys
  exact List.mem_map.2 ⟨p, List.mem_of_find?_eq_some h2, by rw [← h3]; rfl⟩

/-! ## the search over CTEs -/

def cteKey (c : Cte) : Out TableAliased := .ok ⟨c.name, []⟩
def cteSucc (b : QB) (c : Cte) : Out (List Cte) := .ok (c.deps.filterMap b.cteGet)

theorem depsFromCte_dfs (b : QB) (n : Nat) : b.depsFromCte n = dfs cteKey (cteSucc b) n := by
  induction n with
  | zero => rfl
  | succ n ih =>
    funext dep c
    unfold QB.depsFromCte dfs cteKey cteSucc
    dsimp only
    rw [ih]
    rfl

theorem cteGet_eq (b : QB) (n : Str) : b.cteGet n = cteNamed b n := rfl

theorem cteNamed_name {b : QB} {n : Str} {c : Cte} (h : cteNamed b n = some c) : c.name = n := by
  unfold cteNamed at h
  simpa using List.find?_some h

theorem cteNamed_mem {b : QB} {n : Str} {c : Cte} (h : cteNamed b n = some c) : c ∈ b.ctes := by
  unfold cteNamed at h
  simpa using List.mem_of_find?_eq_some h

theorem cteNamed_of_mem {b : QB} {c : Cte} (h : c ∈ b.ctes) : ∃ d, cteNamed b c.name = some d := by
  cases h1 : cteNamed b c.name with
  | some d => exact ⟨d, rfl⟩
  | none =>
    unfold cteNamed at h1
    have := List.find?_eq_none.1 h1 c (by simpa using h)
    simp at this

/-- CTEs reached from a named one are named. -/
theorem reach_named {b : QB} {n : Str} {c d : Cte} (hc : cteNamed b n = some c) (h : Reach (cteSucc b) c d) :
    cteNamed b d.name = some d := by
  cases h with
  | refl => rw [cteNamed_name hc]; exact hc
  | step _ hl hz =>
    cases hl
    obtain ⟨m, _, hm⟩ := List.mem_filterMap.1 hz
    rw [cteGet_eq] at hm
    rw [cteNamed_name hm]; exact hm

theorem reach_needed {b : QB} {rows : List FromTable} {c d : Cte} (hc : cteNamed b c.name = some c)
    (hn : NeededCte b rows c.name) (h : Reach (cteSucc b) c d) : NeededCte b rows d.name := by
  induction h with
  | refl => exact hn
  | step hr hl hz ih =>
    rename_i y z l
    cases hl
    obtain ⟨m, hm, hg⟩ := List.mem_filterMap.1 hz
    rw [cteGet_eq] at hg
    rw [cteNamed_name hg]
    exact .dep ih (reach_named hc hr) hm hg

/-! ## termination -/

/-- The keys of the CTEs. -/
def cteKeys (b : QB) : List TableAliased := b.ctes.map fun c => ⟨c.name, []⟩

theorem dfs_cte_fuel (b : QB) {n : Nat} {dep : Deps} {c : Cte} (hc : c ∈ b.ctes) (hn : b.ctes.length < n) :
    b.depsFromCte n dep c ≠ .oof ∧ ∀ m, n ≤ m → b.depsFromCte m dep c = b.depsFromCte n dep c := by
  -- restrict the search to the CTEs of the builder
  have key : ∀ {n : Nat} {dep : Deps}, left (cteKeys b) dep < n → ∀ c ∈ b.ctes,
      dfs cteKey (cteSucc b) n dep c ≠ .oof ∧ ∀ m, n ≤ m → dfs cteKey (cteSucc b) m dep c = dfs cteKey (cteSucc b) n dep c := by
    intro n
    induction n with
    | zero => intro dep h; omega
    | succ n ih =>
      intro dep hl c hc
      have hfold : ∀ (l : List Cte) (d : Deps), (∀ x ∈ l, x ∈ b.ctes) → left (cteKeys b) d < n →
          foldOut (dfs cteKey (cteSucc b) n) d l ≠ .oof ∧
          ∀ m, n ≤ m → foldOut (dfs cteKey (cteSucc b) m) d l = foldOut (dfs cteKey (cteSucc b) n) d l := by
        intro l
        induction l with
        | nil => intro d _ _; exact ⟨by simp [foldOut], fun _ _ => rfl⟩
        | cons x l ihl =>
          intro d hx hd
          obtain ⟨h1, h2⟩ := ih hd x (hx x (by simp))
          constructor
          · unfold foldOut
            cases hy : dfs cteKey (cteSucc b) n d x with
            | ok d' => exact (ihl d' (fun y hy => hx y (by simp [hy])) (Nat.lt_of_le_of_lt (left_le (dfs_found hy).mono) hd)).1
            | err e => simp
            | panic p => simp
            | oof => exact absurd hy h1
          · intro m hm
            unfold foldOut
            rw [h2 m hm]
            cases hy : dfs cteKey (cteSucc b) n d x with
            | ok d' => exact (ihl d' (fun y hy => hx y (by simp [hy])) (Nat.lt_of_le_of_lt (left_le (dfs_found hy).mono) hd)).2 m hm
            | err e => rfl
            | panic p => rfl
            | oof => rfl
      have hsub : ∀ x ∈ c.deps.filterMap b.cteGet, x ∈ b.ctes := by
        intro x hx
        obtain ⟨m, _, hm⟩ := List.mem_filterMap.1 hx
        exact cteNamed_mem (by rw [← cteGet_eq]; exact hm)
      have hmem : (⟨c.name, []⟩ : TableAliased) ∈ cteKeys b := List.mem_map.2 ⟨c, hc, rfl⟩
      constructor
      · unfold dfs cteKey
        dsimp only
        split
        · simp
        · rename_i hm
          exact (hfold _ (⟨c.name, []⟩ :: dep) hsub (by have := left_lt hmem hm; omega)).1
      · intro m hm
        cases m with
        | zero => omega
        | succ m =>
          unfold dfs cteKey
          dsimp only
          split
          · rfl
          · rename_i hm'
            exact (hfold _ (⟨c.name, []⟩ :: dep) hsub (by have := left_lt hmem hm'; omega)).2 m (by omega)
  have hlen : left (cteKeys b) dep ≤ b.ctes.length := by
    have := left_length (cteKeys b) dep
    simpa [cteKeys] using this
  obtain ⟨h1, h2⟩ := key (n := n) (dep := dep) (by omega) c hc
  simp only [depsFromCte_dfs]
  exact ⟨h1, h2⟩

theorem dfs_table_fuel (b : QB) {n : Nat} {dep : Deps} (hn : b.tablesDict.length < n) :
    (∀ t, b.depsFromTable n dep t ≠ .oof) ∧ ∀ m, n ≤ m → b.depsFromTable m dep = b.depsFromTable n dep := by
  have hlen : left (tableKeys b) dep ≤ b.tablesDict.length := by
    have := left_length (tableKeys b) dep
    simpa [tableKeys] using this
  simp only [depsFromTable_dfs]
  exact dfs_fuel (U := tableKeys b) (fun x k => tableKey_mem) (tableKey_not_oof b) (tableSucc_not_oof b) (by omega)

theorem markCtes_not_oof (b : QB) (deps : Deps) (rows : List FromTable) : b.markCtes deps rows ≠ .oof := by
  unfold QB.markCtes
  induction rows generalizing deps with
  | nil => simp [foldOut]
  | cons r rows ih =>
    unfold foldOut
    split
    · exact ih _
    · rename_i h
      intro ho
      split at ho
      · cases ho
      · cases hg : b.cteGet r.names.name with
        | none => rw [hg] at ho; cases ho
        | some c =>
          rw [hg] at ho
          dsimp only at ho
          rw [cteGet_eq] at hg
          exact (dfs_cte_fuel b (cteNamed_mem hg) (by unfold QB.depFuel; omega)).1 ho

theorem collectDependencies_not_oof (b : QB) : b.collectDependencies ≠ .oof := by
  unfold QB.collectDependencies
  cases h : extractTables b.depRoots with
  | ok tables =>
    dsimp only
    cases b.tableList with
    | nil => simp
    | cons main rows =>
      dsimp only
      cases h2 : foldOut (b.depsFromTable b.depFuel) [main.names] tables with
      | ok deps => exact markCtes_not_oof b deps _
      | err e => simp
      | panic p => simp
      | oof =>
        obtain ⟨d, y, _, h3⟩ := foldOut_fails h2 (by simp)
        exact absurd h3 ((dfs_table_fuel b (by unfold QB.depFuel; omega)).1 y)
  | err e => simp
  | panic p => simp
  | oof =>
    unfold extractTables at h
    split at h <;> cases h

/-! ## what is collected -/

/-- References are resolved to tables of that name. -/
def NamesResolve (b : QB) : Prop := ∀ n r, resolve b n = some r → r.names.appliedName = n

/-- The tables collected from the expressions, main table first. -/
structure TableDeps (b : QB) (main : FromTable) (dep : Deps) : Prop where
  first : main.names ∈ dep
  needed : ∀ t, Needed b t → ∃ r, resolve b t = some r ∧ r.names ∈ dep
  only : ∀ k ∈ dep, k = main.names ∨ ∃ t r, Needed b t ∧ resolve b t = some r ∧ r.names = k

theorem tableDeps {b : QB} {main : FromTable} {tables : List Str} {dep : Deps} {n : Nat} (hres : NamesResolve b)
    (hmain : ∀ t r, resolve b t = some r → r.names = main.names → rowRefs r = [])
    (ht : extractTables b.depRoots = .ok tables)
    (h : foldOut (b.depsFromTable n) [main.names] tables = .ok dep) : TableDeps b main dep := by
  rw [depsFromTable_dfs] at h
  have hf := dfs_fold_found h
  have hroot := (extractTables_ok ht).2
  rw [depRoots_refs] at hroot
  have hneed : ∀ t, Needed b t → ∃ r, resolve b t = some r ∧ r.names ∈ dep := by
    intro t hn
    induction hn with
    | root h1 =>
      obtain ⟨k, h2, h3⟩ := hf.visited _ ((hroot _).2 h1)
      obtain ⟨r, h4, h5⟩ := tableKey_ok.1 h2
      exact ⟨r, h4, h5 ▸ h3⟩
    | on h1 hr hu ih =>
      rename_i t u r
      obtain ⟨r', h2, h3⟩ := ih
      rw [hr] at h2
      cases h2
      by_cases e : u = t
      · subst e; exact ⟨r, hr, h3⟩
      · rcases hf.new _ h3 with h4 | ⟨x, hx, y, h5, h6, l, h7, h8⟩
        · rw [List.mem_singleton] at h4
          rw [hmain t r hr h4] at hu
          cases hu
        · obtain ⟨r2, h9, h10⟩ := tableKey_ok.1 h6
          have : y = t := by
            rw [← hres y r2 h9, h10, hres t r hr]
          subst this
          rcases (tableSucc_ok hr h7).1 u hu with h11 | h11
          · exact absurd h11 e
          · obtain ⟨k, h12, h13⟩ := h8 u h11
            obtain ⟨r3, h14, h15⟩ := tableKey_ok.1 h12
            exact ⟨r3, h14, h15 ▸ h13⟩
  refine ⟨hf.mono _ (by simp), hneed, ?_⟩
  intro k hk
  rcases hf.new k hk with h1 | ⟨x, hx, y, h2, h3, _⟩
  · exact .inl (by simpa using h1)
  · right
    obtain ⟨r, h4, h5⟩ := tableKey_ok.1 h3
    refine ⟨y, r, ?_, h4, h5⟩
    clear h3 h4 h5
    have gen : ∀ y, Reach (tableSucc b) x y → Needed b y := by
     intro y h2
     induction h2 with
     | refl => exact .root ((hroot x).1 hx)
     | step _ hl hz ih =>
      rename_i y z l _
      cases hy : resolve b y with
      | none => unfold tableSucc at hl; rw [hy] at hl; cases hl; cases hz
      | some r => exact .on ih hy ((tableSucc_ok hy hl).2 z hz)
    exact gen y h2

/-- A row is written: it is not optional, or not DISTINCT, or collected. -/
def Kept (b : QB) (dep : Deps) (r : FromTable) : Prop := ¬ (b.distinct = true ∧ r.optional = true ∧ r.names ∉ dep)

/-- The marks of CTEs. -/
structure CteDeps (b : QB) (rows : List FromTable) (dep dep' : Deps) : Prop where
  mono : ∀ k ∈ dep, k ∈ dep'
  used : ∀ r ∈ rows, Kept b dep r → ∀ c, cteNamed b r.names.name = some c →
    (⟨r.names.name, []⟩ : TableAliased) ∈ dep'
  only : ∀ k ∈ dep', k ∈ dep ∨ ∃ r ∈ rows, (∃ at_ : Deps, (∀ k ∈ at_, k ∈ dep') ∧ k ∉ at_ ∧ Kept b at_ r) ∧
    ∃ c, cteNamed b r.names.name = some c ∧ ∃ d, Reach (cteSucc b) c d ∧ k = ⟨d.name, []⟩ ∧
      ∀ m ∈ d.deps, ∀ e, cteNamed b m = some e → (⟨m, []⟩ : TableAliased) ∈ dep'

theorem Kept.mono {b : QB} {dep dep' : Deps} {r : FromTable} (h : Kept b dep r) (hs : ∀ k ∈ dep, k ∈ dep') :
    Kept b dep' r := by
  unfold Kept at h ⊢
  rintro ⟨h1, h2, h3⟩
  exact h ⟨h1, h2, fun h4 => h3 (hs _ h4)⟩

theorem cteDeps {b : QB} {rows : List FromTable} {dep dep' : Deps} (h : b.markCtes dep rows = .ok dep') :
    CteDeps b rows dep dep' := by
  unfold QB.markCtes at h
  induction rows generalizing dep with
  | nil => cases h; exact ⟨fun _ h => h, by simp, fun _ h => .inl h⟩
  | cons r rows ih =>
    obtain ⟨d, h1, h2⟩ := foldOut_ok.1 h
    have i2 := ih h2
    have widen : ∀ k ∈ dep', k ∈ d ∨ ∃ r' ∈ r :: rows,
        (∃ at_ : Deps, (∀ k ∈ at_, k ∈ dep') ∧ k ∉ at_ ∧ Kept b at_ r') ∧ ∃ c, cteNamed b r'.names.name = some c ∧
        ∃ e, Reach (cteSucc b) c e ∧ k = ⟨e.name, []⟩ ∧
          ∀ m ∈ e.deps, ∀ e, cteNamed b m = some e → (⟨m, []⟩ : TableAliased) ∈ dep' := by
      intro k hk
      rcases i2.only k hk with h3 | ⟨r', hr', h3⟩
      · exact .inl h3
      · exact .inr ⟨r', by simp [hr'], h3⟩
    split at h1
    · rename_i hskip
      cases h1
      refine ⟨i2.mono, ?_, widen⟩
      intro r' hr' hk
      rcases List.mem_cons.1 hr' with rfl | hr'
      · exact absurd hskip hk
      · exact i2.used r' hr' hk
    · rename_i hkept
      have hkept : Kept b dep r := hkept
      cases hg : b.cteGet r.names.name with
      | none =>
        rw [hg] at h1
        cases h1
        refine ⟨i2.mono, ?_, widen⟩
        intro r' hr' hk
        rcases List.mem_cons.1 hr' with rfl | hr'
        · intro c hc
          rw [← cteGet_eq, hg] at hc
          cases hc
        · exact i2.used r' hr' hk
      | some c =>
        rw [hg] at h1
        dsimp only at h1
        rw [depsFromCte_dfs] at h1
        have hf := dfs_found h1
        rw [cteGet_eq] at hg
        refine ⟨fun k hk => i2.mono k (hf.mono k hk), ?_, ?_⟩
        · intro r' hr' hk
          rcases List.mem_cons.1 hr' with rfl | hr'
          · intro c' hc'
            obtain ⟨k, h3, h4⟩ := hf.visited c (by simp)
            cases h3
            rw [cteNamed_name hg] at h4
            exact i2.mono _ h4
          · exact i2.used r' hr' (hk.mono hf.mono)
        · intro k hk
          rcases widen k hk with h3 | h3
          · by_cases hkd : k ∈ dep
            · exact .inl hkd
            rcases hf.new k h3 with h4 | ⟨x, hx, y, h5, h6, l, h7, h8⟩
            · exact .inl h4
            · rw [List.mem_singleton] at hx
              subst hx
              cases h6
              cases h7
              refine .inr ⟨r, by simp, ⟨dep, fun k hk => i2.mono k (hf.mono k hk), hkd, hkept⟩, x, hg, y, h5, rfl, ?_⟩
              intro m hm e he
              obtain ⟨k, h9, h10⟩ := h8 e (List.mem_filterMap.2 ⟨m, hm, by rw [cteGet_eq]; exact he⟩)
              cases h9
              rw [cteNamed_name he] at h10
              exact i2.mono _ h10
          · exact .inr h3

/-- All dependencies. -/
theorem collected {b : QB} {dep : Deps} (hres : NamesResolve b)
    (hmain : ∀ main, b.tableList.head? = some main → ∀ t r, resolve b t = some r → r.names = main.names → rowRefs r = [])
    (h : b.collectDependencies = .ok dep) : ∃ main rest dep0, b.tableList = main :: rest ∧
      TableDeps b main dep0 ∧ CteDeps b b.tableList dep0 dep := by
  unfold QB.collectDependencies at h
  cases ht : extractTables b.depRoots with
  | ok tables =>
    rw [ht] at h
    dsimp only at h
    cases hl : b.tableList with
    | nil => rw [hl] at h; cases h
    | cons main rest =>
      rw [hl] at h
      dsimp only at h
      cases h2 : foldOut (b.depsFromTable b.depFuel) [main.names] tables with
      | ok dep0 =>
        rw [h2] at h
        exact ⟨main, rest, dep0, rfl, tableDeps hres (hmain main (by rw [hl]; rfl)) ht h2, cteDeps h⟩
      | err e => rw [h2] at h; cases h
      | panic p => rw [h2] at h; cases h
      | oof => rw [h2] at h; cases h
  | err e => rw [ht] at h; cases h
  | panic p => rw [ht] at h; cases h
  | oof => rw [ht] at h; cases h

end Sqlf
