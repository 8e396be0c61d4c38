import Verif.Spec.Emitted
import Verif.Props.Deps
/-!
# Exactly the tables and CTEs of a query
-/

namespace Sqlf

open Spec Props

section
variable {N K : Type} [DecidableEq K] {key : N → Out K} {succ : N → Out (List N)}

/-- A search that stops at `D` finds nodes with `P` only, if `P` is kept by successors outside of `D`. -/
theorem dfs_only {P : N → Prop} {D : List K}
    (hP : ∀ y k l, P y → key y = .ok k → k ∉ D → succ y = .ok l → ∀ z ∈ l, P z) :
    ∀ {n : Nat} {dep dep' : List K} {x : N}, P x → (∀ k ∈ D, k ∈ dep) → dfs key succ n dep x = .ok dep' →
      (∀ k ∈ D, k ∈ dep') ∧ ∀ k ∈ dep', k ∈ dep ∨ ∃ y, P y ∧ key y = .ok k := by
  intro n
  induction n with
  | zero => intro dep dep' x _ _ h; cases h
  | succ n ih =>
    intro dep dep' x hx hD h
    have hfold : ∀ (l : List N) (d d' : List K), (∀ z ∈ l, P z) → (∀ k ∈ D, k ∈ d) → foldOut (dfs key succ n) d l = .ok d' →
        (∀ k ∈ D, k ∈ d') ∧ ∀ k ∈ d', k ∈ d ∨ ∃ y, P y ∧ key y = .ok k := by
      intro l
      induction l with
      | nil => intro d d' _ hd h; cases h; exact ⟨hd, fun k hk => .inl hk⟩
      | cons z l ihl =>
        intro d d' hl hd h
        obtain ⟨d1, h1, h2⟩ := foldOut_ok.1 h
        obtain ⟨h3, h4⟩ := ih (hl z (by simp)) hd h1
        obtain ⟨h5, h6⟩ := ihl d1 d' (fun y hy => hl y (by simp [hy])) h3 h2
        refine ⟨h5, fun k hk => ?_⟩
        rcases h6 k hk with h7 | h7
        · exact h4 k h7
        · exact .inr h7
    unfold dfs at h
    cases hk : key x with
    | ok k =>
      rw [hk] at h
      dsimp only at h
      by_cases hm : k ∈ dep
      · rw [if_pos hm] at h
        cases h
        exact ⟨hD, fun k hk => .inl hk⟩
      · rw [if_neg hm] at h
        cases hs : succ x with
        | ok l =>
          rw [hs] at h
          obtain ⟨h1, h2⟩ := hfold l (k :: dep) dep' (hP x k l hx hk (fun h => hm (hD k h)) hs)
            (fun j hj => List.mem_cons_of_mem _ (hD j hj)) h
          refine ⟨h1, fun j hj => ?_⟩
          rcases h2 j hj with h3 | h3
          · rcases List.mem_cons.1 h3 with rfl | h3
            · exact .inr ⟨x, hx, hk⟩
            · exact .inl h3
          · exact .inr h3
        | err e => rw [hs] at h; cases h
        | panic p => rw [hs] at h; cases h
        | oof => rw [hs] at h; cases h
    | err e => rw [hk] at h; cases h
    | panic p => rw [hk] at h; cases h
    | oof => rw [hk] at h; cases h
end

/-- What is marked has a property that holds of the CTEs used by rows kept at first, and is kept by dependencies outside
of what was marked at first. -/
theorem markCtes_only {b : QB} {P : Cte → Prop} {D : Deps}
    (hP : ∀ y, P y → (⟨y.name, []⟩ : TableAliased) ∉ D → ∀ m ∈ y.deps, ∀ z, cteNamed b m = some z → P z) :
    ∀ {rows : List FromTable} {dep dep' : Deps},
      (∀ row ∈ rows, Kept b D row → ∀ c, cteNamed b row.names.name = some c → P c) →
      (∀ k ∈ D, k ∈ dep) → (∀ k ∈ dep, k ∈ D ∨ ∃ y, P y ∧ k = ⟨y.name, []⟩) → b.markCtes dep rows = .ok dep' →
      ∀ k ∈ dep', k ∈ D ∨ ∃ y, P y ∧ k = ⟨y.name, []⟩ := by
  intro rows
  unfold QB.markCtes
  induction rows with
  | nil => intro dep dep' _ _ hd h; cases h; exact hd
  | cons row rows ih =>
    intro dep dep' hrows hD hd h
    obtain ⟨d, h1, h2⟩ := foldOut_ok.1 h
    have next : (∀ k ∈ D, k ∈ d) ∧ ∀ k ∈ d, k ∈ D ∨ ∃ y, P y ∧ k = ⟨y.name, []⟩ := by
      split at h1
      · cases h1; exact ⟨hD, hd⟩
      · rename_i hkept
        cases hg : b.cteGet row.names.name with
        | none => rw [hg] at h1; cases h1; exact ⟨hD, hd⟩
        | some c =>
          rw [hg] at h1
          dsimp only at h1
          by_cases hin : (⟨c.name, []⟩ : TableAliased) ∈ dep
          · have : b.depsFromCte b.depFuel dep c = .ok dep := by
              unfold QB.depFuel QB.depsFromCte
              rw [if_pos hin]
            rw [this] at h1
            cases h1
            exact ⟨hD, hd⟩
          · rw [depsFromCte_dfs] at h1
            rw [cteGet_eq] at hg
            have hk0 : Kept b D row := by
              rintro ⟨k1, k2, k3⟩
              by_cases hn : row.names ∈ dep
              · rcases hd _ hn with h3 | ⟨y, _, h3⟩
                · exact k3 h3
                · refine hin ?_
                  have e : row.names.name = y.name := by rw [h3]
                  rw [cteNamed_name hg, e, ← h3]
                  exact hn
              · exact hkept ⟨k1, k2, hn⟩
            obtain ⟨h3, h4⟩ := dfs_only (P := P) (D := D) (fun y k l hy hk hkD hl z hz => by
                cases hk
                cases hl
                obtain ⟨m, hm, hg⟩ := List.mem_filterMap.1 hz
                exact hP y hy hkD m hm z hg) (hrows row (by simp) hk0 c hg) hD h1
            refine ⟨h3, fun k hk => ?_⟩
            rcases h4 k hk with h5 | ⟨y, hy, h5⟩
            · exact hd k h5
            · cases h5
              exact .inr ⟨y, hy, rfl⟩
    exact ih (fun r hr => hrows r (by simp [hr])) next.1 next.2 h2

/-- The main table of calls that gave one. -/
theorem tablesBy_cons {cs : List Call} {main : FromTable} {rest : List FromTable} (h : tablesBy cs = main :: rest) :
    main.optional = false ∧ rest = joinedBy cs ∧ (mainOf cs = none → main.names = ⟨[], []⟩) ∧
      ∀ m, mainOf cs = some m → main = m := by
  rw [tablesBy_eq] at h
  split at h
  · cases h
  · rename_i hg
    cases hm : mainOf cs with
    | none =>
      rw [hm] at h
      cases h
      exact ⟨rfl, rfl, fun _ => rfl, (fun m hm => nomatch hm)⟩
    | some m =>
      rw [hm] at h
      cases h
      refine ⟨?_, rfl, (fun h => nomatch h), fun m' hm' => by cases hm'; rfl⟩
      obtain ⟨c, _, hc⟩ := List.mem_filterMap.1 (List.mem_of_getLast? hm)
      cases c <;> simp [fromGiven, gives] at hc
      obtain ⟨-, rfl⟩ := hc
      rfl

theorem joined_ne_main {cs : List Call} (hn : NoClash cs) {main row : FromTable} {rest : List FromTable}
    (h : tablesBy cs = main :: rest) (hrow : row ∈ joinedBy cs) : row.names ≠ main.names := by
  obtain ⟨-, -, h1, h2⟩ := tablesBy_cons h
  have hjoin := (lastNamed_some (mem_joinedBy.1 hrow)).1
  intro e
  cases hmn : mainOf cs with
  | none =>
    obtain ⟨c, hc1, hc2⟩ := List.mem_filterMap.1 hjoin
    exact gives_row (joinGiven_some hc2) (by rw [e, h1 hmn])
  | some m =>
    refine hn m (List.mem_of_getLast? hmn) row hjoin ?_
    rw [e, h2 m hmn]

/-- The names collected at first are those of the main table and of needed ones. -/
theorem first_names {L : GoLib} {cs : List Call} {b : QB} (hm : Made L cs b) (hn : NoClash cs)
    {main : FromTable} {rest : List FromTable} {dep0 : Deps} (h3 : tablesBy cs = main :: rest) (h4 : TableDeps b main dep0)
    {row : FromTable} (hrow : row ∈ tablesBy cs) :
    (row.names ∈ dep0 → row.optional = false ∨ NeededBy cs row.names.appliedName) ∧
    (NeededBy cs row.names.appliedName → row.optional = true → row.names ∈ dep0) := by
  obtain ⟨ho, hr, -, -⟩ := tablesBy_cons h3
  have hcase : row = main ∨ row ∈ joinedBy cs := by
    rw [h3] at hrow
    rcases List.mem_cons.1 hrow with h | h
    · exact .inl h
    · exact .inr (hr ▸ h)
  rcases hcase with rfl | hj
  · exact ⟨fun _ => .inl ho, fun _ h => by rw [ho] at h; cases h⟩
  · constructor
    · intro hk
      rcases h4.only _ hk with h5 | ⟨t, r2, h7, h8, h9⟩
      · exact absurd h5 (joined_ne_main hn h3 hj)
      · have : t = row.names.appliedName := by rw [← hm.names t r2 h8, h9]
        rw [← this]
        exact .inr ((hm.needed t).1 h7)
    · intro hneed _
      obtain ⟨r', h6, h7⟩ := h4.needed _ ((hm.needed _).2 hneed)
      rw [hm.resolve, rowOf_of_joined hn hj] at h6
      cases h6
      exact h7

theorem kept_iff_inAnyway {L : GoLib} {cs : List Call} {b : QB} (hm : Made L cs b) (hn : NoClash cs)
    {main : FromTable} {rest : List FromTable} {dep0 : Deps} (h3 : tablesBy cs = main :: rest) (h4 : TableDeps b main dep0)
    {row : FromTable} (hrow : row ∈ tablesBy cs) : Kept b dep0 row ↔ InAnyway cs row := by
  obtain ⟨f1, f2⟩ := first_names hm hn h3 h4 hrow
  unfold Kept InAnyway
  rw [hm.fields.distinct]
  constructor
  · intro h
    refine ⟨hrow, ?_⟩
    cases hd : distinctIn cs with
    | false => exact .inl rfl
    | true =>
      cases ho : row.optional with
      | false => exact .inr (.inl rfl)
      | true =>
        have hk : row.names ∈ dep0 := Classical.byContradiction fun h0 => h ⟨hd, ho, h0⟩
        rcases f1 hk with h1 | h1
        · rw [ho] at h1; cases h1
        · exact .inr (.inr h1)
  · rintro ⟨-, h⟩ ⟨k1, k2, k3⟩
    rcases h with h | h | h
    · rw [h] at k1; cases k1
    · rw [h] at k2; cases k2
    · exact k3 (f2 h k2)

theorem plain_iff {L : GoLib} {cs : List Call} {b : QB} (hm : Made L cs b)
    {main : FromTable} {rest : List FromTable} {dep0 : Deps} (h3 : tablesBy cs = main :: rest) (h4 : TableDeps b main dep0)
    (n : Str) : (⟨n, []⟩ : TableAliased) ∈ dep0 ↔ PlainTable cs n := by
  constructor
  · intro hk
    rcases h4.only _ hk with h5 | ⟨t, r2, h7, h8, h9⟩
    · exact ⟨main, .inl (by rw [h3]; rfl), h5.symm⟩
    · have : t = n := by
        rw [← hm.names t r2 h8, h9]
        rfl
      subst this
      exact ⟨r2, .inr ⟨(hm.needed t).1 h7, by rw [← hm.resolve]; exact h8⟩, h9⟩
  · rintro ⟨row, h5 | ⟨h5, h6⟩, h7⟩
    · rw [h3] at h5
      cases h5
      rw [← h7]
      exact h4.first
    · obtain ⟨r', h8, h9⟩ := h4.needed n ((hm.needed n).2 h5)
      rw [hm.resolve, h6] at h8
      cases h8
      rwa [h7] at h9

/-- What is marked, exactly. -/
theorem marked_iff {L : GoLib} {cs : List Call} {b : QB} (hm : Made L cs b) (hn : NoClash cs) (ho : OneFrom cs)
    {main : FromTable} {rest : List FromTable} {dep0 dep : Deps} (h3 : tablesBy cs = main :: rest) (h4 : TableDeps b main dep0)
    (h5 : b.markCtes dep0 (tablesBy cs) = .ok dep) :
    (∀ c ∈ declaredBy cs, (⟨c.name, []⟩ : TableAliased) ∈ dep ↔ Emitted cs c.name) ∧
    ∀ row ∈ tablesBy cs, rowKept (distinctIn cs) dep row = true ↔ TableWritten cs row := by
  have last : ∀ n, lastCte (declaredBy cs) n = cteNamed b n := by
    intro n
    rw [← hm.fields.ctes]
    rfl
  have hdeps := cteDeps h5
  have only : ∀ k ∈ dep, k ∈ dep0 ∨ ∃ y : Cte, (Emitted cs y.name ∧ cteNamed b y.name = some y) ∧ k = ⟨y.name, []⟩ := by
    refine markCtes_only (P := fun y => Emitted cs y.name ∧ cteNamed b y.name = some y) ?_ ?_ (fun _ h => h) (fun _ h => .inl h) h5
    · rintro y ⟨hy, hy'⟩ hD m hmm z hz
      rw [cteNamed_name hz]
      exact ⟨.dep hy (fun hp => hD ((plain_iff hm h3 h4 _).2 hp)) ((last _).trans hy') hmm ((last _).trans hz), hz⟩
    · intro row hrow hk c hc
      rw [cteNamed_name hc]
      exact ⟨.used ((kept_iff_inAnyway hm hn h3 h4 hrow).1 hk) ((last _).trans hc), hc⟩
  have emitted : ∀ n, Emitted cs n → (⟨n, []⟩ : TableAliased) ∈ dep := by
    intro n he
    induction he with
    | used hr hc => exact hdeps.used _ hr.1 ((kept_iff_inAnyway hm hn h3 h4 hr.1).2 hr) _ ((last _).symm.trans hc)
    | @dep n m c d _ hp hc hmm hd ih =>
      rcases hdeps.only _ ih with h6 | ⟨r', hr', _, c', hcn, d', hcd, hkd, h7⟩
      · exact absurd ((plain_iff hm h3 h4 n).1 h6) hp
      · have hn' : n = d'.name := by
          simp only [TableAliased.mk.injEq, and_true] at hkd
          exact hkd
        have h8 := reach_named hcn hcd
        rw [← hn', ← last, hc] at h8
        cases h8
        exact h7 m hmm d ((last _).symm.trans hd)
  have marked : ∀ n c, cteNamed b n = some c → (⟨n, []⟩ : TableAliased) ∈ dep → Emitted cs n := by
    intro n c hc hk
    rcases only _ hk with h6 | ⟨y, ⟨hy, -⟩, e⟩
    · obtain ⟨row, hrow, e⟩ := dep_row hm hn ho h3 h4 h6
      have e' : row.names.name = n := by rw [e]
      rw [← e'] at hc ⊢
      refine .used ((kept_iff_inAnyway hm hn h3 h4 hrow).1 ?_) ((last _).trans hc)
      rintro ⟨_, _, h7⟩
      exact h7 (by rw [e]; exact h6)
    · simp only [TableAliased.mk.injEq, and_true] at e
      rw [e]
      exact hy
  refine ⟨fun c hc => ⟨fun hk => ?_, emitted _⟩, fun row hrow => ?_⟩
  · obtain ⟨d, hd⟩ := cteNamed_of_mem (b := b) (by rw [hm.fields.ctes]; exact hc)
    exact marked _ d hd hk
  · rw [rowKept_iff]
    constructor
    · intro hk
      by_cases h6 : Kept b dep0 row
      · exact .inl ((kept_iff_inAnyway hm hn h3 h4 hrow).1 h6)
      · have h6 : b.distinct = true ∧ row.optional = true ∧ row.names ∉ dep0 := Classical.not_not.1 h6
        have hin : row.names ∈ dep := Classical.byContradiction fun h0 =>
          hk ⟨by rw [← hm.fields.distinct]; exact h6.1, h6.2.1, h0⟩
        rcases only _ hin with h7 | ⟨y, ⟨hy, -⟩, e⟩
        · exact absurd h7 h6.2.2
        · refine .inr ⟨hrow, by rw [e], ?_⟩
          rw [e]
          exact hy
    · rintro (h6 | ⟨-, h6, h7⟩)
      · have h8 := ((kept_iff_inAnyway hm hn h3 h4 hrow).2 h6).mono hdeps.mono
        unfold Kept at h8
        rwa [hm.fields.distinct] at h8
      · rintro ⟨_, _, h8⟩
        refine h8 ?_
        have := emitted _ h7
        have e : row.names = ⟨row.names.name, []⟩ := by
          cases hnm : row.names with
          | mk nm al => rw [hnm] at h6; cases h6; rfl
        rw [e]
        exact this

theorem collected_marks {L : GoLib} {cs : List Call} {b : QB} (hm : Made L cs b) (hn : NoClash cs) {dep : Deps}
    (h : b.collectDependencies = .ok dep) : ∃ main rest dep0, tablesBy cs = main :: rest ∧
      TableDeps b main dep0 ∧ b.markCtes dep0 (tablesBy cs) = .ok dep := by
  unfold QB.collectDependencies at h
  have hlist := hm.list hn
  cases ht : extractTables b.depRoots with
  | ok tables =>
    rw [ht] at h
    dsimp only at h
    cases hl : b.tableList with
    | nil => rw [hl] at h; cases h
    | cons main rest =>
      rw [hl] at h
      dsimp only at h
      cases h2 : foldOut (b.depsFromTable b.depFuel) [main.names] tables with
      | ok dep0 =>
        rw [h2] at h
        rw [← hl] at h
        rw [← hlist]
        exact ⟨main, rest, dep0, hl, tableDeps hm.names (hm.mainRefs hn main (by rw [hl]; rfl)) ht h2, h⟩
      | err e => rw [h2] at h; cases h
      | panic p => rw [h2] at h; cases h
      | oof => rw [h2] at h; cases h
  | err e => rw [ht] at h; cases h
  | panic p => rw [ht] at h; cases h
  | oof => rw [ht] at h; cases h

end Sqlf
