import Verif.Spec.AnyCalls
import Verif.Proofs.Emitted
/-!
# Exactly the tables and CTEs of a query, whatever names are used
-/

namespace Sqlf

open Spec Props

/-! ## rows -/

theorem TablesOk.weaken {F F' : Str → Prop} (hF : ∀ n, F n → F' n) {b : QB} {p0 : Nat} {ps : List Nat}
    (h : TablesOk F b p0 ps) : TablesOk F' b p0 ps :=
  ⟨h.tables, h.main, h.lt0, h.lt, h.nodup, fun n p hn => h.get n p fun h => hn (hF n h),
    fun q hq hn => h.put q hq fun h => hn (hF _ h), h.name0.imp (hF _) id⟩

theorem TablesInv.weaken {F F' : Str → Prop} (hF : ∀ n, F n → F' n) {b : QB} (h : TablesInv F b) : TablesInv F' b := by
  rcases h with h | ⟨p0, ps, h⟩
  · exact .inl h
  · exact .inr ⟨p0, ps, h.weaken hF⟩

/-- Where the names given to `From` lead: to the main table, or out of the list. -/
structure RowsInv (taken : List Str) (mn : Option Str) (b : QB) : Prop where
  dict : DictOk b
  inv : TablesInv (· ∈ taken) b
  some_ : taken ≠ [] → b.tables ≠ []
  held : ∀ n ∈ taken, ∃ p, b.dictGet n = some p ∧ p ∉ b.tables.tail ∧ (b.tables.head? = some p ↔ mn = some n)
  main : ∀ n, mn = some n → n ∈ taken

theorem rowsInv_new : RowsInv [] none QB.new :=
  ⟨dictOk_new, tablesInv_new _, fun h => absurd rfl h, (by simp), (by simp)⟩

theorem rowsInv_from {taken : List Str} {mn : Option Str} {b : QB} {t : TableAliased} (ht : t.name ≠ [])
    (h : RowsInv taken mn b) : RowsInv (t.appliedName :: taken) (some t.appliedName) (b.from_ t) ∧
      (b.from_ t).tableList = fromRow t :: b.tableList.tail := by
  have hw : TablesInv (· ∈ t.appliedName :: taken) b := h.inv.weaken fun n hn => List.mem_cons_of_mem _ hn
  obtain ⟨p0, ps, h1, h2, h3⟩ := from_ok h.dict hw ht (List.mem_cons_self ..)
  refine ⟨⟨from_dictOk h.dict ht, .inr ⟨p0, ps, h1⟩, fun _ => by rw [h1.tables]; simp, ?_, ?_⟩, by rw [ok_list h1, h2, h3]⟩
  · have hts : (b.from_ t).tables = b.cells.length :: b.tables.tail := by
      rw [from_eq ht]
      dsimp only
      cases b.tables <;> simp
    have hdict : ∀ n, (b.from_ t).dictGet n = if t.appliedName = n then some b.cells.length else b.dictGet n := by
      intro n
      rw [from_eq ht, dictGet_cons]
    have hlt : ∀ q ∈ b.tables.tail, q < b.cells.length := by
      intro q hq
      rcases h.inv with ⟨e, _⟩ | ⟨p, qs, ho⟩
      · rw [e] at hq; cases hq
      · rw [ho.tables] at hq; exact ho.lt q hq
    intro n hn
    rw [hdict, hts]
    by_cases e : t.appliedName = n
    · subst e
      refine ⟨b.cells.length, by simp, fun hq => ?_, by simp⟩
      have := hlt _ hq
      omega
    · rcases List.mem_cons.1 hn with e' | hn
      · exact absurd e'.symm e
      · obtain ⟨p, hp, hq, _⟩ := h.held n hn
        refine ⟨p, by simp [e, hp], hq, ?_⟩
        have := h.dict.lt n p hp
        simp [e]
        omega
  · intro n hn
    cases hn
    exact List.mem_cons_self ..

theorem rowsInv_fresh {taken : List Str} {mn : Option Str} {b : QB} {r : FromTable} (hne : r.names.name ≠ [])
    (h : RowsInv taken mn b) (hn : r.names.appliedName ∉ taken) :
    RowsInv taken mn (putRow (ensureMain b) r.names.appliedName r) ∧
      (putRow (ensureMain b) r.names.appliedName r).tableList =
        b.tableList.head?.getD blankRow :: putIn b.tableList.tail r := by
  obtain ⟨p0, ps, h1, h3, h4⟩ := ensureMain_ok h.inv
  have hd := ensureMain_dictOk h.dict
  obtain ⟨ps', h2, h5⟩ := put_ok hd h1 (r := r) rfl
  obtain ⟨h6, h7⟩ := h5 hn (appliedName_ne hne)
  refine ⟨⟨put_dictOk hd rfl, .inr ⟨p0, ps', h2⟩, fun _ => by rw [h2.tables]; simp, ?_, h.main⟩, by
    rw [ok_list h2, h6, h7, h3, h4]⟩
  intro n hnt
  obtain ⟨p, hp, hq, hh⟩ := h.held n hnt
  have hb : b.tables ≠ [] := h.some_ (List.ne_nil_of_mem hnt)
  have he : ensureMain b = b := by
    unfold ensureMain
    rw [if_neg (by simpa using hb)]
  rw [he]
  have hlt := h.dict.lt n p hp
  have hnn : r.names.appliedName ≠ n := fun e => hn (e ▸ hnt)
  unfold putRow
  cases hg : b.dictGet r.names.appliedName with
  | some q => exact ⟨p, hp, hq, hh⟩
  | none =>
    dsimp only
    refine ⟨p, by rw [dictGet_cons, if_neg hnn]; exact hp, ?_, ?_⟩
    · cases ht : b.tables with
      | nil => exact absurd ht hb
      | cons x xs =>
        rw [ht] at hq
        simp only [List.cons_append, List.tail_cons, List.mem_append, List.mem_singleton, not_or]
        exact ⟨hq, by omega⟩
    · cases ht : b.tables with
      | nil => exact absurd ht hb
      | cons x xs =>
        rw [ht] at hh
        simpa using hh

theorem rowsInv_taken {taken : List Str} {mn : Option Str} {b : QB} {r : FromTable}
    (h : RowsInv taken mn b) (hn : r.names.appliedName ∈ taken) :
    RowsInv taken mn (putRow (ensureMain b) r.names.appliedName r) ∧
      (putRow (ensureMain b) r.names.appliedName r).tableList =
        (if mn = some r.names.appliedName then r else b.tableList.head?.getD blankRow) :: b.tableList.tail := by
  have hb : b.tables ≠ [] := h.some_ (List.ne_nil_of_mem hn)
  have he : ensureMain b = b := by
    unfold ensureMain
    rw [if_neg (by simpa using hb)]
  obtain ⟨p, hp, hq, hh⟩ := h.held _ hn
  have hlt := h.dict.lt _ p hp
  have hput : putRow (ensureMain b) r.names.appliedName r = { b with cells := b.cells.set p r } := by
    rw [he]
    unfold putRow
    rw [hp]
  have hinv : ∃ p0 ps, TablesOk (· ∈ taken) b p0 ps := by
    rcases h.inv with ⟨e, _⟩ | h1
    · exact absurd e hb
    · exact h1
  obtain ⟨p0, ps, h1⟩ := hinv
  obtain ⟨ps', h2, _⟩ := put_ok h.dict h1 (r := r) rfl
  have hput' : putRow b r.names.appliedName r = { b with cells := b.cells.set p r } := by
    unfold putRow
    rw [hp]
  rw [hput'] at h2
  rw [hput]
  refine ⟨⟨by rw [← hput']; exact put_dictOk h.dict rfl, .inr ⟨p0, ps', h2⟩, fun _ => hb, h.held, h.main⟩, ?_⟩
  have hcell : ∀ q ts, ({ b with cells := b.cells.set p r, tables := ts } : QB).cell q = if q = p then r else b.cell q :=
    fun q ts => cell_set (b := { b with tables := ts }) hlt
  unfold QB.tableList
  rw [h1.tables] at hq hh ⊢
  simp only [List.map_cons, List.head?_cons, Option.getD_some, List.tail_cons, Option.some.injEq] at hh hq ⊢
  congr 1
  · rw [hcell]
    by_cases e : p0 = p
    · rw [if_pos e, if_pos (hh.1 e)]
    · rw [if_neg e, if_neg fun h => e (hh.2 h)]
  · apply List.map_congr_left
    intro x hx
    rw [hcell, if_neg]
    rintro rfl
    exact hq hx

theorem rowOf_cons (n : Str) (c : Call) (cs : List Call) : rowOf n (c :: cs) = match rowOf n cs with
    | some r => some r
    | none => match gives c with
      | some r => if r.names.appliedName = n then some r else none
      | none => none := rfl

theorem calls_rows {taken : List Str} {mn : Option Str} {b b' : QB} {cs : List Call} (hb : RowsInv taken mn b)
    (h : runCalls b cs = .ok b') :
    b'.tableList = if b.tableList = [] ∧ cs.filterMap gives = [] then [] else
      (mainRow cs).getD ((mn.bind fun n => rowOf n cs).getD (b.tableList.head?.getD blankRow)) :: (freshJoins taken cs).foldl putIn b.tableList.tail := by
  induction cs generalizing b taken mn with
  | nil =>
    cases h
    cases hl : b'.tableList with
    | nil => simp
    | cons x xs => cases mn <;> simp [mainRow, freshJoins, rowOf]
  | cons c cs ih =>
    obtain ⟨b1, h1, h2⟩ := calls_cons h
    have hs := table_step h1
    cases hs with
    | none hg e1 e2 e3 =>
      have hl : b1.tableList = b.tableList := by
        unfold QB.tableList
        rw [e2]
        apply List.map_congr_left
        intro x _
        unfold QB.cell
        rw [e1]
      have hdict : ∀ n, b1.dictGet n = b.dictGet n := fun n => by unfold QB.dictGet; rw [e3]
      have hb1 : RowsInv taken mn b1 := ⟨dictOk_congr hb.dict e1 e3, tablesInv_congr hb.inv e1 e2 e3, by rw [e2]; exact hb.some_,
        fun n hn => by rw [hdict, e2]; exact hb.held n hn, hb.main⟩
      have := ih hb1 h2
      rw [this, hl]
      have hf : fromGiven c = none := by
        rcases gives_cases c with ⟨h1, _⟩ | ⟨h1, _⟩
        · rw [h1, hg]
        · exact h1
      have hfr : freshJoins taken (c :: cs) = freshJoins taken cs := by
        rw [freshJoins, hf, joinGiven_none hg]
      have hmr : mainRow (c :: cs) = mainRow cs := by
        rw [mainRow, hf]
        cases mainRow cs <;> rfl
      have hro : ∀ n, rowOf n (c :: cs) = rowOf n cs := by
        intro n
        rw [rowOf_cons, hg]
        cases rowOf n cs <;> rfl
      rw [hfr, hmr, List.filterMap_cons, hg]
      simp only [hro]
    | from_ t ht hc h' =>
      subst hc h'
      obtain ⟨hb1, hl⟩ := rowsInv_from ht hb
      rw [ih hb1 h2, hl]
      have hg : gives (.from_ t) = some (fromRow t) := by simp [gives, ht]
      have hf : fromGiven (.from_ t) = some (fromRow t) := hg
      rw [if_neg (by simp), if_neg (by simp [List.filterMap_cons, hg])]
      congr 1
      · rw [mainRow]
        cases mainRow cs with
        | some r => rfl
        | none => rw [hf]; rfl
      · rw [freshJoins, hf]; rfl
    | join t k on opt ht hc hg h' =>
      have hf : fromGiven c = none ∧ joinGiven c = some (joinRow t k on opt) := by
        rcases gives_cases c with ⟨_, h2⟩ | ⟨h1, h2⟩
        · cases c <;> simp [joinOf] at hc <;> simp [joinGiven, hg] at h2
        · exact ⟨h1, h2.trans hg⟩
      have hne : (joinRow t k on opt).names.name ≠ [] := ht
      have hname : t.appliedName = (joinRow t k on opt).names.appliedName := rfl
      rw [hname] at h'
      have hmr : mainRow (c :: cs) = mainRow cs := by
        rw [mainRow, hf.1]
        cases mainRow cs <;> rfl
      generalize joinRow t k on opt = r at *
      by_cases hn : r.names.appliedName ∈ taken
      · obtain ⟨hb1, hl⟩ := rowsInv_taken hb hn
        rw [← h'] at hb1 hl
        rw [ih hb1 h2, hl, hmr, List.filterMap_cons, hg]
        simp only [reduceCtorEq, false_and, and_false, if_false]
        congr 1
        · congr 1
          cases mn with
          | none => rfl
          | some n =>
            simp only [Option.bind_some]
            rw [rowOf_cons, hg]
            simp only [Option.some.injEq, List.head?_cons, Option.getD_some]
            cases rowOf n cs with
            | some x => rfl
            | none =>
              dsimp only
              by_cases e : n = r.names.appliedName
              · rw [if_pos e, if_pos e.symm]; rfl
              · rw [if_neg e, if_neg fun h => e h.symm]
        · rw [freshJoins, hf.1, hf.2]
          dsimp only
          rw [if_pos hn]
          rfl
      · obtain ⟨hb1, hl⟩ := rowsInv_fresh hne hb hn
        rw [← h'] at hb1 hl
        rw [ih hb1 h2, hl, hmr, List.filterMap_cons, hg]
        simp only [reduceCtorEq, false_and, and_false, if_false]
        congr 1
        · congr 1
          cases hmn : mn with
          | none => rfl
          | some n =>
            simp only [Option.bind_some]
            have e : r.names.appliedName ≠ n := fun e => hn (e ▸ hb.main n hmn)
            rw [rowOf_cons, hg]
            cases rowOf n cs with
            | some x => rfl
            | none =>
              dsimp only
              rw [if_neg e]; rfl
        · rw [freshJoins, hf.1, hf.2]
          dsimp only
          rw [if_neg hn]
          rfl

theorem Spec.Made.rows {L : GoLib} {cs : List Call} {b : QB} (h : Made L cs b) : b.tableList = rowsBy cs := by
  obtain ⟨b0, h1, h2⟩ := h.base
  rw [h2.tableList, calls_rows rowsInv_new h1]
  unfold rowsBy
  have e : QB.new.tableList = [] := rfl
  rw [e]
  simp [blankRow]

/-! ## tables that are looked up -/

/-- What is collected from the expressions, main table first. -/
structure UseDeps (cs : List Call) (main : FromTable) (dep : Deps) : Prop where
  first : main.names ∈ dep
  needed : ∀ t, LookedUp cs t → ∃ r, rowOf t cs = some r ∧ r.names ∈ dep
  only : ∀ k ∈ dep, k = main.names ∨ ∃ t r, LookedUp cs t ∧ rowOf t cs = some r ∧ r.names = k

theorem dfs_fold_only {N K : Type} [DecidableEq K] {key : N → Out K} {succ : N → Out (List N)} {P : N → Prop} {D : List K}
    (hP : ∀ y k l, P y → key y = .ok k → k ∉ D → succ y = .ok l → ∀ z ∈ l, P z) {n : Nat} {xs : List N} {dep dep' : List K}
    (hx : ∀ x ∈ xs, P x) (hD : ∀ k ∈ D, k ∈ dep) (h : foldOut (dfs key succ n) dep xs = .ok dep') :
    ∀ k ∈ dep', k ∈ dep ∨ ∃ y, P y ∧ key y = .ok k := by
  induction xs generalizing dep with
  | nil => cases h; exact fun k hk => .inl hk
  | cons x xs ih =>
    obtain ⟨d, h1, h2⟩ := foldOut_ok.1 h
    obtain ⟨h3, h4⟩ := dfs_only hP (hx x (by simp)) hD h1
    intro k hk
    rcases ih (fun y hy => hx y (by simp [hy])) h3 h2 k hk with h5 | h5
    · exact h4 k h5
    · exact .inr h5

theorem useDeps {L : GoLib} {cs : List Call} {b : QB} (hm : Made L cs b) {main : FromTable} {rest : List FromTable}
    (hl : rowsBy cs = main :: rest) {tables : List Str} {dep : Deps} {n : Nat} (ht : extractTables b.depRoots = .ok tables)
    (h : foldOut (b.depsFromTable n) [main.names] tables = .ok dep) : UseDeps cs main dep := by
  rw [depsFromTable_dfs] at h
  have hf := dfs_fold_found h
  have hroot := (extractTables_ok ht).2
  rw [depRoots_refs] at hroot
  have hmain : mainNames cs = some main.names := by
    unfold mainNames
    rw [hl]
    rfl
  refine ⟨hf.mono _ (by simp), ?_, ?_⟩
  · intro t hn
    induction hn with
    | root h1 =>
      obtain ⟨k, h2, h3⟩ := hf.visited _ ((hroot _).2 ((hm.roots _).2 h1))
      obtain ⟨r, h4, h5⟩ := tableKey_ok.1 h2
      exact ⟨r, by rw [← hm.resolve]; exact h4, h5 ▸ h3⟩
    | @on t u r h1 hr hne hu ih =>
      obtain ⟨r', h2, h3⟩ := ih
      rw [hr] at h2
      cases h2
      by_cases e : u = t
      · subst e; exact ⟨r, hr, h3⟩
      · rcases hf.new _ h3 with h4 | ⟨x, hx, y, h5, h6, l, h7, h8⟩
        · rw [List.mem_singleton] at h4
          exact absurd (by rw [hmain, h4]) hne
        · obtain ⟨r2, h9, h10⟩ := tableKey_ok.1 h6
          rw [← hm.resolve] at hr
          have : y = t := by
            rw [← hm.names y r2 h9, h10, hm.names t r hr]
          subst this
          rcases (tableSucc_ok hr h7).1 u hu with h11 | h11
          · exact absurd h11 e
          · obtain ⟨k, h12, h13⟩ := h8 u h11
            obtain ⟨r3, h14, h15⟩ := tableKey_ok.1 h12
            exact ⟨r3, by rw [← hm.resolve]; exact h14, h15 ▸ h13⟩
  · intro k hk
    have := dfs_fold_only (P := LookedUp cs) (D := [main.names]) (fun y k l hy hk hkD hl z hz => by
        obtain ⟨r, h4, h5⟩ := tableKey_ok.1 hk
        refine .on hy (by rw [← hm.resolve]; exact h4) ?_ ((tableSucc_ok h4 hl).2 z hz)
        rw [hmain, h5]
        intro e
        cases e
        exact hkD (by simp)) (fun x hx => .root ((hm.roots _).1 ((hroot x).1 hx))) (fun _ h => h) h k hk
    rcases this with h1 | ⟨y, hy, h1⟩
    · exact .inl (by simpa using h1)
    · obtain ⟨r, h4, h5⟩ := tableKey_ok.1 h1
      exact .inr ⟨y, r, hy, by rw [← hm.resolve]; exact h4, h5⟩

theorem UseDeps.inUse {cs : List Call} {main : FromTable} {rest : List FromTable} {dep : Deps}
    (hl : rowsBy cs = main :: rest) (h : UseDeps cs main dep) (k : TableAliased) : k ∈ dep ↔ InUse cs k := by
  have hmain : mainNames cs = some main.names := by
    unfold mainNames
    rw [hl]
    rfl
  unfold InUse
  rw [hmain]
  constructor
  · intro hk
    rcases h.only k hk with h1 | h1
    · exact .inl (by rw [h1])
    · exact .inr h1
  · rintro (h1 | ⟨t, r, h1, h2, h3⟩)
    · cases h1; exact h.first
    · obtain ⟨r', h4, h5⟩ := h.needed t h1
      rw [h2] at h4
      cases h4
      exact h3 ▸ h5

theorem kept_iff_stays {L : GoLib} {cs : List Call} {b : QB} (hm : Made L cs b) {main : FromTable} {rest : List FromTable}
    {dep : Deps} (hl : rowsBy cs = main :: rest) (h : UseDeps cs main dep) {row : FromTable} (hrow : row ∈ rowsBy cs) :
    Kept b dep row ↔ RowStays cs row := by
  unfold Kept RowStays
  rw [hm.fields.distinct, h.inUse hl]
  constructor
  · intro h1
    refine ⟨hrow, ?_⟩
    cases hd : distinctIn cs with
    | false => exact .inl rfl
    | true =>
      cases ho : row.optional with
      | false => exact .inr (.inl rfl)
      | true => exact .inr (.inr (Classical.byContradiction fun h0 => h1 ⟨hd, ho, h0⟩))
  · rintro ⟨-, h1⟩ ⟨k1, k2, k3⟩
    rcases h1 with h1 | h1 | h1
    · rw [h1] at k1; cases k1
    · rw [h1] at k2; cases k2
    · exact k3 h1

/-- What is marked, exactly. -/
theorem written_iff {L : GoLib} {cs : List Call} {b : QB} (hm : Made L cs b) {main : FromTable} {rest : List FromTable}
    {dep0 dep : Deps} (h3 : rowsBy cs = main :: rest) (h4 : UseDeps cs main dep0)
    (h5 : b.markCtes dep0 (rowsBy cs) = .ok dep) :
    (∀ c ∈ declaredBy cs, (⟨c.name, []⟩ : TableAliased) ∈ dep ↔ CteWritten cs c.name) ∧
    ∀ row ∈ rowsBy cs, rowKept (distinctIn cs) dep row = true ↔ RowWritten cs row := by
  have last : ∀ n, lastCte (declaredBy cs) n = cteNamed b n := by
    intro n
    rw [← hm.fields.ctes]
    rfl
  have hdeps := cteDeps h5
  have only : ∀ k ∈ dep, k ∈ dep0 ∨ ∃ y : Cte, (CteWritten cs y.name ∧ cteNamed b y.name = some y) ∧ k = ⟨y.name, []⟩ := by
    refine markCtes_only (P := fun y => CteWritten cs y.name ∧ cteNamed b y.name = some y) ?_ ?_ (fun _ h => h)
      (fun _ h => .inl h) h5
    · rintro y ⟨hy, hy'⟩ hD m hmm z hz
      rw [cteNamed_name hz]
      exact ⟨.dep hy (fun hp => hD ((h4.inUse h3 _).2 hp)) ((last _).trans hy') hmm ((last _).trans hz), hz⟩
    · intro row hrow hk c hc
      rw [cteNamed_name hc]
      exact ⟨.row ((kept_iff_stays hm h3 h4 hrow).1 hk) ((last _).trans hc), hc⟩
  have written : ∀ n, CteWritten cs n → (⟨n, []⟩ : TableAliased) ∈ dep := by
    intro n he
    induction he with
    | used h _ => exact hdeps.mono _ ((h4.inUse h3 _).2 h)
    | row hr hc => exact hdeps.used _ hr.1 ((kept_iff_stays hm h3 h4 hr.1).2 hr) _ ((last _).symm.trans hc)
    | @dep n m c d _ hp hc hmm hd ih =>
      rcases hdeps.only _ ih with h6 | ⟨r', hr', _, c', hcn, d', hcd, hkd, h7⟩
      · exact absurd ((h4.inUse h3 _).1 h6) hp
      · have hn' : n = d'.name := by
          simp only [TableAliased.mk.injEq, and_true] at hkd
          exact hkd
        have h8 := reach_named hcn hcd
        rw [← hn', ← last, hc] at h8
        cases h8
        exact h7 m hmm d ((last _).symm.trans hd)
  have marked : ∀ n c, cteNamed b n = some c → (⟨n, []⟩ : TableAliased) ∈ dep → CteWritten cs n := by
    intro n c hc hk
    rcases only _ hk with h6 | ⟨y, ⟨hy, -⟩, e⟩
    · exact .used ((h4.inUse h3 _).1 h6) ((last _).trans hc)
    · simp only [TableAliased.mk.injEq, and_true] at e
      rw [e]
      exact hy
  refine ⟨fun c hc => ⟨fun hk => ?_, written _⟩, fun row hrow => ?_⟩
  · obtain ⟨d, hd⟩ := cteNamed_of_mem (b := b) (by rw [hm.fields.ctes]; exact hc)
    exact marked _ d hd hk
  · rw [rowKept_iff]
    constructor
    · intro hk
      by_cases h6 : Kept b dep0 row
      · exact .inl ((kept_iff_stays hm h3 h4 hrow).1 h6)
      · have h6 : b.distinct = true ∧ row.optional = true ∧ row.names ∉ dep0 := Classical.not_not.1 h6
        have hin : row.names ∈ dep := Classical.byContradiction fun h0 =>
          hk ⟨by rw [← hm.fields.distinct]; exact h6.1, h6.2.1, h0⟩
        rcases only _ hin with h7 | ⟨y, ⟨hy, -⟩, e⟩
        · exact absurd h7 h6.2.2
        · refine .inr ⟨hrow, by rw [e], ?_⟩
          rw [e]
          exact hy
    · rintro (h6 | ⟨-, h6, h7⟩)
      · have h8 := ((kept_iff_stays hm h3 h4 hrow).2 h6).mono hdeps.mono
        unfold Kept at h8
        rwa [hm.fields.distinct] at h8
      · rintro ⟨_, _, h8⟩
        refine h8 ?_
        have := written _ h7
        have e : row.names = ⟨row.names.name, []⟩ := by
          cases hnm : row.names with
          | mk nm al => rw [hnm] at h6; cases h6; rfl
        rw [e]
        exact this

theorem collected_written {L : GoLib} {cs : List Call} {b : QB} (hm : Made L cs b) {dep : Deps}
    (h : b.collectDependencies = .ok dep) : ∃ main rest dep0, rowsBy cs = main :: rest ∧
      UseDeps cs main dep0 ∧ b.markCtes dep0 (rowsBy cs) = .ok dep := by
  unfold QB.collectDependencies at h
  cases ht : extractTables b.depRoots with
  | ok tables =>
    rw [ht] at h
    dsimp only at h
    cases hl : b.tableList with
    | nil => rw [hl] at h; cases h
    | cons main rest =>
      rw [hl] at h
      dsimp only at h
      cases h2 : foldOut (b.depsFromTable b.depFuel) [main.names] tables with
      | ok dep0 =>
        rw [h2] at h
        rw [← hl] at h
        rw [← hm.rows]
        exact ⟨main, rest, dep0, hl, useDeps hm (by rw [← hm.rows]; exact hl) ht h2, h⟩
      | err e => rw [h2] at h; cases h
      | panic p => rw [h2] at h; cases h
      | oof => rw [h2] at h; cases h
  | err e => rw [ht] at h; cases h
  | panic p => rw [ht] at h; cases h
  | oof => rw [ht] at h; cases h

end Sqlf
