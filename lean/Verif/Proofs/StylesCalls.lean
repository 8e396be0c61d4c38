import Verif.Proofs.StylesRun
/-!
# Calls with builders that do not look at placeholders
-/

namespace Sqlf

open Spec

theorem rowBlind_of {t : FromTable} (h : ∀ f, t.fragment = some f → StyleFreeF [] f f) : BlindToStyle (rowBuilder t) := by
  unfold rowBuilder BlindToStyle
  cases hf : t.fragment with
  | none => simp [StyleFree]
  | some f => rw [StyleFree]; exact h f hf

theorem new_quiet : QuietQB QB.new := by
  constructor <;> simp [QB.new, StyleFreeF, StyleFreeL, Fragment.F, Fragment.withPrefix, sameButMarks_str]

theorem quiet_cells {b : QB} (h : QuietQB b) {cells : List FromTable} (hc : ∀ t ∈ cells, BlindToStyle (rowBuilder t))
    (tables : List Nat) (dict : List (Str × Nat)) : QuietQB { b with cells := cells, tables := tables, tablesDict := dict } :=
  ⟨h.ctes, hc, h.selects, h.touches, h.conditions, h.orders, h.groupbys, h.unions, h.quiet⟩

theorem pushError_quiet {b : QB} (h : QuietQB b) (e : Err) : QuietQB (b.pushError e) :=
  ⟨h.ctes, h.cells, h.selects, h.touches, h.conditions, h.orders, h.groupbys, h.unions, h.quiet⟩

theorem blind_frag {f : Fragment} (h : StyleFreeF [] f f) : BlindToStyle (.frag f) := by
  unfold BlindToStyle; rw [StyleFree]; exact h

theorem frag_blind {f : Fragment} (h : BlindToStyle (.frag f)) : StyleFreeF [] f f := by
  unfold BlindToStyle at h; rwa [StyleFree] at h

theorem condition_quiet {b : QB} (h : QuietQB b) {f : Fragment} (hf : StyleFreeF [] f f) :
    QuietQB { b with conditions := b.conditions.appendFragments [.frag f] } :=
  ⟨h.ctes, h.cells, h.selects, h.touches, styleFreeF_append h.conditions (by intro x hx; rw [List.mem_singleton] at hx; subst hx; exact blind_frag hf), h.orders, h.groupbys,
    h.unions, h.quiet⟩

theorem blind_cond {raw : Str} {c : Builder} (hc : BlindToStyle c) {vs : List Val} (hv : ∀ v ∈ vs, ¬ Unhashable v) :
    StyleFreeF [] (((Fragment.F raw).withFragments [c]).withArgs vs) (((Fragment.F raw).withFragments [c]).withArgs vs) := by
  simp only [Fragment.F, Fragment.withFragments, Fragment.withArgs, StyleFreeF, StyleFreeL]
  exact ⟨trivial, trivial, hv, ⟨hc, trivial⟩, sameButMarks_str _ _, sameButMarks_str _ _⟩

theorem whereIn_quiet {b : QB} (h : QuietQB b) (op : Str) {c : Builder} {l : Val} (hc : BlindToStyle c)
    (hl : ∃ vs, argsFlatted [l] = .ok vs ∧ ∀ v ∈ vs, ¬ Unhashable v) {d : QB} (hd : b.whereInOp op c l = .ok d) : QuietQB d := by
  obtain ⟨vs, h1, h2⟩ := hl
  unfold QB.whereInOp at hd
  rw [h1] at hd
  cases hd
  exact condition_quiet h (blind_cond hc h2)

theorem from_quiet {b : QB} (h : QuietQB b) (t : TableAliased) : QuietQB (b.from_ t) := by
  unfold QB.from_
  split
  · exact pushError_quiet h _
  · refine quiet_cells h ?_ _ _
    intro x hx
    rcases List.mem_append.1 hx with hx | hx
    · exact h.cells x hx
    · rw [List.mem_singleton] at hx
      subst hx
      refine rowBlind_of fun f hf => ?_
      cases hf
      exact styleFreeF_F _

theorem join_quiet {b : QB} (h : QuietQB b) (kind : Str) (t : TableAliased) {on : Option Fragment}
    (ho : ∀ g, on = some g → BlindToStyle (.frag g)) (opt : Bool) {d : QB} (hd : b.join kind t on opt = .ok d) : QuietQB d := by
  unfold QB.join at hd
  split at hd
  · cases hd; exact pushError_quiet h _
  · cases on with
    | none => cases hd
    | some f =>
      have h0 : QuietQB (if b.tables.length = 0 then
          { b with cells := b.cells ++ [⟨⟨[], []⟩, none, false⟩], tables := b.tables ++ [b.cells.length] } else b) := by
        split
        · refine quiet_cells h ?_ _ _
          intro x hx
          rcases List.mem_append.1 hx with hx | hx
          · exact h.cells x hx
          · rw [List.mem_singleton] at hx
            subst hx
            exact rowBlind_of fun f hf => by cases hf
        · exact h
      dsimp only at hd
      revert h0 hd
      generalize (if b.tables.length = 0 then
        { b with cells := b.cells ++ [⟨⟨[], []⟩, none, false⟩], tables := b.tables ++ [b.cells.length] } else b) = b1
      intro hd h0
      have hcell : BlindToStyle (rowBuilder { names := t, fragment := some (.Ff (kind ++ lit " " ++ QB.tableAndAlias t ++ lit " #f1") [.frag (f.withPrefix (lit "ON"))]), optional := opt }) := by
        refine rowBlind_of fun g hg => ?_
        cases hg
        exact styleFreeF_Ff (blind_frag (styleFreeF_prefix (frag_blind (ho f rfl)) _))
      cases hg : b1.dictGet t.appliedName with
      | none =>
        rw [hg] at hd
        cases hd
        refine quiet_cells h0 ?_ _ _
        intro x hx
        rcases List.mem_append.1 hx with hx | hx
        · exact h0.cells x hx
        · rw [List.mem_singleton] at hx
          subst hx
          exact hcell
      | some ptr =>
        rw [hg] at hd
        cases hd
        refine quiet_cells h0 ?_ _ _
        intro x hx
        rcases List.mem_or_eq_of_mem_set hx with hx | rfl
        · exact h0.cells x hx
        · exact hcell

theorem apply_quiet {b : QB} (h : QuietQB b) {c : Call} (hc : BlindCall c) {d : QB} (hd : c.apply b = .ok d) : QuietQB d := by
  cases c with
  | select cs =>
    cases hd
    unfold QB.select
    split
    · exact h
    · exact ⟨h.ctes, h.cells, styleFreeF_set h.selects hc, h.touches, h.conditions, h.orders, h.groupbys, h.unions, h.quiet⟩
  | groupBy cs =>
    cases hd
    exact ⟨h.ctes, h.cells, h.selects, h.touches, h.conditions, h.orders, styleFreeF_append h.groupbys hc, h.unions, h.quiet⟩
  | orderBy c o =>
    cases hd
    refine ⟨h.ctes, h.cells, h.selects, h.touches, h.conditions, fun x hx => ?_, h.groupbys, h.unions, h.quiet⟩
    rcases List.mem_append.1 hx with hx | hx
    · exact h.orders x hx
    · rw [List.mem_singleton] at hx; subst hx; exact hc
  | union bs =>
    cases hd
    refine ⟨h.ctes, h.cells, h.selects, h.touches, h.conditions, h.orders, h.groupbys, fun x hx => ?_, h.quiet⟩
    rcases List.mem_append.1 hx with hx | hx
    · exact h.unions x hx
    · exact hc x hx
  | with_ n b ds =>
    cases hd
    refine ⟨fun x hx => ?_, h.cells, h.selects, h.touches, h.conditions, h.orders, h.groupbys, h.unions, h.quiet⟩
    rcases List.mem_append.1 hx with hx | hx
    · exact h.ctes x hx
    · rw [List.mem_singleton] at hx; subst hx; exact hc
  | where_ f =>
    cases hd
    cases f with
    | none => exact h
    | some f => exact condition_quiet h (frag_blind (hc f rfl))
  | where2 c op v =>
    cases hd
    exact condition_quiet h (blind_cond hc.1 (by simpa using hc.2))
  | whereIn c l => exact whereIn_quiet h _ hc.1 hc.2 hd
  | whereNotIn c l => exact whereIn_quiet h _ hc.1 hc.2 hd
  | from_ t => cases hd; exact from_quiet h t
  | innerJoin t on => exact join_quiet h _ t hc _ hd
  | leftJoin t on => exact join_quiet h _ t hc _ hd
  | leftJoinOptional t on => exact join_quiet h _ t hc _ hd
  | rightJoin t on => exact join_quiet h _ t hc _ hd
  | fullJoin t on => exact join_quiet h _ t hc _ hd
  | crossJoin t => exact join_quiet (on := none) h (lit "CROSS JOIN") t (by simp) false hd
  | distinct =>
    cases hd
    exact ⟨h.ctes, h.cells, h.selects, h.touches, h.conditions, h.orders, h.groupbys, h.unions, h.quiet⟩
  | debug => exact hc.elim
  | limit n =>
    cases hd
    unfold QB.setLimit
    split
    · exact ⟨h.ctes, h.cells, h.selects, h.touches, h.conditions, h.orders, h.groupbys, h.unions, h.quiet⟩
    · exact h
  | offset n =>
    cases hd
    unfold QB.setOffset
    split
    · exact ⟨h.ctes, h.cells, h.selects, h.touches, h.conditions, h.orders, h.groupbys, h.unions, h.quiet⟩
    · exact h

theorem runCalls_quiet : ∀ (cs : List Call) {b : QB}, QuietQB b → (∀ c ∈ cs, BlindCall c) → ∀ {d : QB}, runCalls b cs = .ok d → QuietQB d
  | [], _, h, _, _, hd => by cases hd; exact h
  | c :: cs, b, h, hc, d, hd => by
    unfold runCalls at hd
    cases hb : c.apply b with
    | ok b1 =>
      rw [hb] at hd
      exact runCalls_quiet cs (apply_quiet h (hc c (by simp)) hb) (fun x hx => hc x (by simp [hx])) hd
    | _ => rw [hb] at hd; cases hd

theorem blindQuery_quiet {b : QB} (h : BlindQuery b) : QuietQB b := by
  obtain ⟨cs, h1, h2⟩ := h
  exact runCalls_quiet cs new_quiet h2 h1

/-! ## Committing in both styles -/

theorem commit_dollar_cases {s t : Store} {v : Val} {p : Str} (hd : s.isDollar = true) (h : s.commit v = some (p, t)) :
    t.args = s.args ∨ t.args = s.args ++ [v] := by
  unfold Store.commit at h
  simp only [hd, if_true] at h
  split at h
  · cases h
  · cases hl : dictLookup s.dict v with
    | some n => rw [hl] at h; cases h; exact .inl rfl
    | none => rw [hl] at h; cases h; exact .inr rfl

theorem commitAll_sublist {s s' : Store} {vs : List Val} {ps : List Str} (hd : s.isDollar = true)
    (h : commitAll s vs = some (ps, s')) : ∃ l, s'.args = s.args ++ l ∧ l.Sublist vs := by
  induction vs generalizing s ps with
  | nil => simp [commitAll] at h; obtain ⟨_, rfl⟩ := h; exact ⟨[], by simp, List.Sublist.refl _⟩
  | cons v vs ih =>
    unfold commitAll at h
    cases hc : s.commit v with
    | none => rw [hc] at h; cases h
    | some x =>
      obtain ⟨p, t⟩ := x
      rw [hc] at h
      dsimp only at h
      cases hr : commitAll t vs with
      | none => rw [hr] at h; cases h
      | some y =>
        obtain ⟨qs, t'⟩ := y
        rw [hr] at h
        cases h
        have ht : t.isDollar = true := by
          have : commitAll s [v] = some ([p], t) := by simp [commitAll, hc]
          rw [(commitAll_prefix this).2]; exact hd
        obtain ⟨l, h1, h2⟩ := ih ht hr
        rcases commit_dollar_cases hd hc with e | e
        · exact ⟨l, by rw [h1, e], h2.cons v⟩
        · exact ⟨v :: l, by rw [h1, e]; simp, h2.cons_cons v⟩

end Sqlf
