import Verif.Proofs.Schedules
import Verif.Props.Again
/-!
# C88, C89, C90: goroutines

`started L fuel builds heap` (`Verif.Spec.Threads`): goroutines that each call `BuildQuery` once.  A
schedule is the list of the goroutines whose turn it is.
-/

namespace Sqlf.Props

open Spec

/-- **C88** (partial: memory is sequentially consistent, see C90, and builders with Distinct and OrderBy, or
with an invalid order, are excluded, see the counterexample)  Goroutines that build the same query builders
at the same time: in every schedule each of them returns and logs what it would have returned and logged
alone. -/
theorem C88_shared_builders_partial (L : GoLib) (heap : List QB)
    (hh : ∀ b ∈ heap, ∃ cs, Made L cs b ∧ Repeatable cs) (builds : List (Builder × Style))
    (i : Nat) (c : Builder) (style : Style) (hi : builds[i]? = some (c, style))
    (r : Out (Str × List Val) × List Str) (hr : Alone L c style heap r) :
    ∃ N, ∀ fuel, N ≤ fuel → ∀ (schedule : List Nat) r',
      ((started L fuel builds heap).run schedule).result i = some r' → r' = r := by
  obtain ⟨-, N, hN⟩ := hr
  refine ⟨N, fun fuel hf schedule r' h => ?_⟩
  have := ((started_tracks L fuel builds (steady_of_made hh)).run steady_stable schedule).result h
  rw [hi] at this
  rw [this, ← hN fuel hf]

/-- C88: in a schedule in which its turn comes again and again, a goroutine returns. -/
theorem C88_fair_schedules_finish_partial (L : GoLib) (heap : List QB)
    (hh : ∀ b ∈ heap, ∃ cs, Made L cs b ∧ Repeatable cs) (builds : List (Builder × Style))
    (i : Nat) (c : Builder) (style : Style) (hi : builds[i]? = some (c, style))
    (r : Out (Str × List Val) × List Str) (hr : Alone L c style heap r) :
    ∃ N, ∀ fuel, N ≤ fuel → ∀ σ : Nat → Nat, Fair σ i →
      ∃ n, ((started L fuel builds heap).run (firstSteps σ n)).result i = some r := by
  obtain ⟨N, hN⟩ := C88_shared_builders_partial L heap hh builds i c style hi r hr
  refine ⟨N, fun fuel hf σ hσ => ?_⟩
  have ht : (started L fuel builds heap).threads[i]? = some (buildThread L fuel c style) := by
    rw [started_get, hi]; rfl
  obtain ⟨n, a, h⟩ := Sys.finishes _ _ i σ ht hσ
  refine ⟨n, ?_⟩
  rw [← hN fuel hf _ _ h]
  exact h

/-- C88: while and after goroutines build, the query builders give what they gave before. -/
theorem C88_builders_stay_partial (L : GoLib) (heap : List QB)
    (hh : ∀ b ∈ heap, ∃ cs, Made L cs b ∧ Repeatable cs) (builds : List (Builder × Style)) (fuel : Nat)
    (schedule : List Nat) (c : Builder) (style : Style) (o : Out (Str × List Val)) :
    Returns L c style ((started L fuel builds heap).run schedule).heap o ↔ Returns L c style heap o := by
  have hr : HeapRel SelectsOnly heap ((started L fuel builds heap).run schedule).heap :=
    (started_tracks L fuel builds (steady_of_made hh)).keeps steady_stable
      (I := HeapRel SelectsOnly heap) (fun _ _ _ hG => setsPrefix_only hG)
      ⟨fun _ h => h, fun _ b h => ⟨b, h, .refl b⟩⟩ schedule
  unfold Returns
  simp only [buildQuery_both selectsOnly_rel L _ c style hr]

/-- `Alone` is about what `BuildQuery` returns. -/
theorem alone_means_returns (L : GoLib) (b : Builder) (style : Style) (heap : List QB) (o : Out (Str × List Val)) :
    Returns L b style heap o ↔ ∃ log, Alone L b style heap (o, log) := returns_iff_alone

/-- Counts the rows of the query with all clauses. -/
def countFull : Builder := .frag (.mk (lit "SELECT count(*) FROM (#f1)") [] [.qb 0] [] [])

def countFullQuery : Str := lit ("SELECT count(*) FROM (With c AS (SELECT 1) " ++
  "SELECT u.id, u.name FROM users AS u LEFT JOIN c ON c.id = $1 WHERE u.age > $2 AND u.group IN ($3, $4) " ++
  "GROUP BY u.id ORDER BY u.id DESC LIMIT 10 OFFSET 20 UNION (SELECT 2))")

/-- Two goroutines build the query with all clauses, taking turns at every access, one of them inside a
fragment. -/
example (L : GoLib) : (∀ b ∈ [fullQB], ∃ cs, Made L cs b ∧ Repeatable cs) ∧
    Alone L countFull dollar [fullQB] (.ok (countFullQuery, [.int 64 7, .int 64 18, .int 64 1, .int 64 2]), []) ∧
    ((started L 200 [(.qb 0, question), (countFull, dollar)] [fullQB]).run
      ((List.range 40).flatMap fun _ => [0, 1])).result 1 =
      some (.ok (countFullQuery, [.int 64 7, .int 64 18, .int 64 1, .int 64 2]), []) := by
  refine ⟨?_, alone_of_run (n := 200) (by kernel_rfl) (by simp), by kernel_rfl⟩
  intro b hb
  cases List.mem_singleton.1 hb
  exact ⟨fullCalls, fullQB_made L, by decide +kernel, by decide +kernel⟩

/-- Taking turns is fair. -/
example : Fair (fun n => n % 2) 1 := fun n => ⟨2 * n + 1, by omega, by show (2 * n + 1) % 2 = 1; omega⟩

/-- With Distinct and OrderBy a goroutine can return a query that selects the ordering expression twice,
because another one has appended it in the meantime. -/
theorem C88_distinct_order_counterexample (L : GoLib) :
    ∃ cs b schedule, runCalls QB.new cs = .ok b ∧
      Alone L (.qb 0) question [b]
        (.ok (lit "SELECT DISTINCT u.id, u.age AS _order_1 FROM users AS u ORDER BY _order_1 ASC", []), []) ∧
      ((started L 200 [(.qb 0, question), (.qb 0, question)] [b]).run schedule).result 0 =
        some (.ok (lit "SELECT DISTINCT u.id, u.age AS _order_1, u.age AS _order_1 FROM users AS u ORDER BY _order_1 ASC",
          []), []) :=
  ⟨[.distinct, .select [tableColumn (lit "u") (lit "id")], .from_ ⟨lit "users", lit "u"⟩,
    .orderBy (tableColumn (lit "u") (lit "age")) 0], distinctOrdered,
    List.replicate 9 0 ++ List.replicate 20 1 ++ List.replicate 10 0, rfl,
    alone_of_run (n := 200) (by kernel_rfl) (by simp), by kernel_rfl⟩

/-- **C89** Goroutines that share no query builder: whatever they build, with whatever user code, and in
every schedule, each of them returns and logs what it would have returned and logged alone. -/
theorem C89_unshared_builders (L : GoLib) (heap : List QB) (builds : List (Builder × Style))
    (i : Nat) (c : Builder) (style : Style) (hi : builds[i]? = some (c, style)) (Mine Others : Nat → Prop)
    (hap : Apart builds heap i Mine Others) (r : Out (Str × List Val) × List Str) (hr : Alone L c style heap r) :
    ∃ N, ∀ fuel, N ≤ fuel →
      (∀ (schedule : List Nat) r', ((started L fuel builds heap).run schedule).result i = some r' → r' = r) ∧
      ∀ σ : Nat → Nat, Fair σ i → ∃ n, ((started L fuel builds heap).run (firstSteps σ n)).result i = some r := by
  obtain ⟨-, N, hN⟩ := hr
  have key : ∀ fuel, N ≤ fuel → ∀ (schedule : List Nat) r',
      ((started L fuel builds heap).run schedule).result i = some r' → r' = r := by
    intro fuel hf schedule r' h
    rw [← hN fuel hf]
    exact ((hap.splits L fuel hi).run schedule).result h
  refine ⟨N, fun fuel hf => ⟨key fuel hf, fun σ hσ => ?_⟩⟩
  have ht : (started L fuel builds heap).threads[i]? = some (buildThread L fuel c style) := by
    rw [started_get, hi]; rfl
  obtain ⟨n, a, h⟩ := Sys.finishes _ _ i σ ht hσ
  refine ⟨n, ?_⟩
  rw [← key fuel hf _ _ h]
  exact h

/-- Two goroutines build their own query builder with Distinct and OrderBy, in a schedule that would make
them disturb each other if they shared it. -/
example (L : GoLib) :
    Apart [(.qb 0, question), (.qb 1, question)] [distinctOrdered, distinctOrdered] 0 (· = 0) (· = 1) ∧
    Alone L (.qb 0) question [distinctOrdered, distinctOrdered]
      (.ok (lit "SELECT DISTINCT u.id, u.age AS _order_1 FROM users AS u ORDER BY _order_1 ASC", []), []) ∧
    ((started L 200 [(.qb 0, question), (.qb 1, question)] [distinctOrdered, distinctOrdered]).run
      (List.replicate 9 0 ++ List.replicate 20 1 ++ List.replicate 10 0)).result 0 =
      some (.ok (lit "SELECT DISTINCT u.id, u.age AS _order_1 FROM users AS u ORDER BY _order_1 ASC", []), []) := by
  have parts : ∀ (S : Nat → Prop), ∀ c ∈ partsOf distinctOrdered, RefsIn S c := by
    intro S c hc
    have h : (partsOf distinctOrdered).all (fun | .frag f => f.frags.isEmpty | .column _ f => f.frags.isEmpty | _ => false)
        = true := by decide +kernel
    have h := List.all_eq_true.1 h c hc
    cases c with
    | frag f => exact (refsInF_iff f).2 (by rw [List.isEmpty_iff.1 h]; simp)
    | column t f => exact (refsInF_iff f).2 (by rw [List.isEmpty_iff.1 h]; simp)
    | _ => cases h
  refine ⟨⟨?_, ?_, ?_, ?_, ?_⟩, alone_of_run (n := 200) (by kernel_rfl) (by simp), by kernel_rfl⟩
  · intro b st h; cases h; rfl
  · intro r b hr hb; subst hr; cases hb; exact parts _
  · intro j b st hj h
    match j with
    | 0 => exact absurd rfl hj
    | 1 => cases h; rfl
    | j + 2 => cases h
  · intro r b hr hb; subst hr; cases hb; exact parts _
  · intro r h h'; omega

/-- C89: a goroutine that builds no query builder is not disturbed by any others. -/
theorem C89_fragments_undisturbed (L : GoLib) (heap : List QB) (builds : List (Builder × Style))
    (i : Nat) (c : Builder) (style : Style) (hi : builds[i]? = some (c, style)) (hc : RefsIn (fun _ => False) c)
    (r : Out (Str × List Val) × List Str) (hr : Alone L c style heap r) :
    ∃ N, ∀ fuel, N ≤ fuel →
      (∀ (schedule : List Nat) r', ((started L fuel builds heap).run schedule).result i = some r' → r' = r) ∧
      ∀ σ : Nat → Nat, Fair σ i → ∃ n, ((started L fuel builds heap).run (firstSteps σ n)).result i = some r := by
  refine C89_unshared_builders L heap builds i c style hi (fun _ => False) (fun _ => True) ⟨?_, ?_, ?_, ?_, ?_⟩ r hr
  · intro b st hb
    rw [hi] at hb; cases hb
    exact hc
  · exact fun _ _ h => h.elim
  · exact fun _ b _ _ _ => refsIn_all b
  · exact fun _ _ _ _ c _ => refsIn_all c
  · exact fun _ h => h.elim

/-- A fragment with an argument and a nested fragment refers to no query builder. -/
example : RefsIn (fun _ => False) (.frag (.mk (lit "id = $1 AND #f1") [.int 64 1] [.frag (.F (lit "1 = 1"))] [] [])) := by
  simp [RefsIn, RefsInF, RefsInL, Fragment.F]

/-- C89: a goroutine that runs alone returns and logs what a sequential build does, whatever it builds. -/
theorem C89_alone_is_sequential (L : GoLib) (heap : List QB) (c : Builder) (style : Style)
    (r : Out (Str × List Val) × List Str) (hr : Alone L c style heap r) :
    ∃ N, ∀ fuel, N ≤ fuel → ∃ n, ((started L fuel [(c, style)] heap).run (List.replicate n 0)).result 0 = some r := by
  have one : ∀ j b st, j ≠ 0 → [(c, style)][j]? = some (b, st) → RefsIn (fun _ => False) b := by
    intro j b st hj h
    cases j with
    | zero => exact absurd rfl hj
    | succ j => cases h
  obtain ⟨N, hN⟩ := C89_unshared_builders L heap [(c, style)] 0 c style rfl (fun _ => True) (fun _ => False)
    ⟨fun b _ _ => refsIn_all b, fun _ _ _ _ c _ => refsIn_all c, one, fun _ _ h => h.elim, fun _ _ h => h⟩ r hr
  refine ⟨N, fun fuel hf => ?_⟩
  obtain ⟨n, h⟩ := (hN fuel hf).2 (fun _ => 0) fun n => ⟨n, Nat.le_refl n, rfl⟩
  refine ⟨n, ?_⟩
  have : firstSteps (fun _ => 0) n = List.replicate n 0 := by simp [firstSteps, List.map_const']
  rw [← this]
  exact h

/-- A query builder inside a fragment, alone. -/
example (L : GoLib) :
    Alone L countFull dollar [fullQB] (.ok (countFullQuery, [.int 64 7, .int 64 18, .int 64 1, .int 64 2]), []) ∧
    ((started L 200 [(countFull, dollar)] [fullQB]).run (List.replicate 40 0)).result 0 =
      some (.ok (countFullQuery, [.int 64 7, .int 64 18, .int 64 1, .int 64 2]), []) :=
  ⟨alone_of_run (n := 200) (by kernel_rfl) (by simp), by kernel_rfl⟩

/-- **C90** (partial: a query builder that is shared is not free of races, see the counterexample)  No race:
a goroutine that shares no query builder with the others never accesses memory that another one accesses at
the same time. -/
theorem C90_no_race_unshared_partial (L : GoLib) (heap : List QB) (builds : List (Builder × Style))
    (i : Nat) (c : Builder) (style : Style) (hi : builds[i]? = some (c, style)) (Mine Others : Nat → Prop)
    (hap : Apart builds heap i Mine Others) (fuel : Nat) (schedule : List Nat) (j : Nat) (f : Field) :
    ¬ Races ((started L fuel builds heap).run schedule) i j f :=
  ((hap.splits L fuel hi).run schedule).noRace j f

/-- Two goroutines with a query builder each. -/
example : Apart [(.qb 0, question), (.qb 1, question)] [QB.new, QB.new] 0 (· = 0) (· = 1) := by
  have parts : ∀ S : Nat → Prop, ∀ c ∈ partsOf QB.new, RefsIn S c := by
    intro S c hc
    have : partsOf QB.new = [] := by decide +kernel
    rw [this] at hc
    cases hc
  refine ⟨?_, ?_, ?_, ?_, ?_⟩
  · intro b st h; cases h; rfl
  · intro r b hr hb; subst hr; cases hb; exact parts _
  · intro j b st hj h
    match j with
    | 0 => exact absurd rfl hj
    | 1 => cases h; rfl
    | j + 2 => cases h
  · intro r b hr hb; subst hr; cases hb; exact parts _
  · intro r h h'; omega

/-- C90: the only field of a shared query builder that builds race on is the prefix of its SELECT clause
(builders with Distinct and OrderBy, or with an invalid order, are excluded). -/
theorem C90_only_the_prefix_partial (L : GoLib) (heap : List QB)
    (hh : ∀ b ∈ heap, ∃ cs, Made L cs b ∧ Repeatable cs) (builds : List (Builder × Style)) (fuel : Nat)
    (schedule : List Nat) (i j : Nat) (f : Field)
    (hr : Races ((started L fuel builds heap).run schedule) i j f) : f = .selectsPrefix :=
  ((started_tracks L fuel builds (steady_of_made hh)).run steady_stable schedule).race hr

/-- Both goroutines are about to set the prefix of the SELECT clause of the query builder they share (the hypotheses
of `C90_only_the_prefix_partial` are met). -/
theorem C90_prefix_counterexample (L : GoLib) :
    (∀ b ∈ [fullQB], ∃ cs, Made L cs b ∧ Repeatable cs) ∧
    Races ((started L 200 [(.qb 0, question), (.qb 0, question)] [fullQB]).run
      (List.replicate 9 0 ++ List.replicate 9 1)) 0 1 .selectsPrefix := by
  refine ⟨?_, races_of_accesses (r := 0) (fs := [.selectsPrefix]) (gs := [.selectsPrefix]) (w := true) (v := true)
    (by decide) (by kernel_rfl) (by kernel_rfl) (by simp) (by simp) (.inl rfl)⟩
  intro b hb
  cases List.mem_singleton.1 hb
  exact ⟨fullCalls, fullQB_made L, by decide +kernel, by decide +kernel⟩

/-- With Distinct and OrderBy builds also race on the columns they append. -/
theorem C90_touches_counterexample (L : GoLib) :
    Races ((started L 200 [(.qb 0, question), (.qb 0, question)] [distinctOrdered]).run
      (List.replicate 8 0 ++ List.replicate 7 1)) 0 1 .touches :=
  races_of_accesses (r := 0) (fs := [.touches]) (gs := [.touches]) (w := true) (v := false)
    (by decide) (by kernel_rfl) (by kernel_rfl) (by simp) (by simp) (.inl rfl)

end Sqlf.Props
