import Verif.Proofs.Owned
import Verif.Props.Threads
/-!
# C88, C90, C103: goroutines that make, change and build query builders

`working L fuel work heap` (`Verif.Spec.Jobs`): goroutines that each have a list of jobs, calls of methods of query
builders and calls of `BuildQuery`.  `DoneAlone` says what comes of the jobs of a goroutine if nothing else runs.
-/

namespace Sqlf.Props

open Spec

/-- **C103** Goroutines that make, change and build their own query builders: whatever they do, with whatever user
code, and in every schedule, each of them gets what it would have got alone, and does get it if its turn comes again
and again. -/
theorem C103_own_builders (L : GoLib) (owner : Nat → Nat) (work : List (List Job)) (heap : List QB)
    (ho : Owned L (fun r => some (owner r)) work heap) (i : Nat) (jobs : List Job) (hi : work[i]? = some jobs)
    (shown : List Shown) (hd : DoneAlone L heap jobs shown) :
    ∃ N, ∀ fuel, N ≤ fuel →
      (∀ (schedule : List Nat) r, ((working L fuel work heap).run schedule).result i = some r → r = shown) ∧
      ∀ σ : Nat → Nat, Fair σ i → ∃ n, ((working L fuel work heap).run (firstSteps σ n)).result i = some shown :=
  working_results ho hi hd

/-- C103: and there is no race, so that what the goroutines see of memory is what the model says. -/
theorem C103_no_race (L : GoLib) (owner : Nat → Nat) (work : List (List Job)) (heap : List QB)
    (ho : Owned L (fun r => some (owner r)) work heap) (fuel : Nat) (schedule : List Nat) (i j : Nat) (f : Field) :
    ¬ Races ((working L fuel work heap).run schedule) i j f := by
  obtain ⟨goal, h⟩ := ho.owning_any fuel
  exact (h.run schedule).noRace (by simp) i j f

/-- **C88** (partial as `C88_shared_builders_partial`)  Goroutines that make, change and build their own query
builders, and share others that none of them changes: each gets what it would have got alone. -/
theorem C88_own_and_shared_builders_partial (L : GoLib) (owner : Nat → Option Nat) (work : List (List Job))
    (heap : List QB) (ho : Owned L owner work heap) (i : Nat) (jobs : List Job) (hi : work[i]? = some jobs)
    (shown : List Shown) (hd : DoneAlone L heap jobs shown) :
    ∃ N, ∀ fuel, N ≤ fuel →
      (∀ (schedule : List Nat) r, ((working L fuel work heap).run schedule).result i = some r → r = shown) ∧
      ∀ σ : Nat → Nat, Fair σ i → ∃ n, ((working L fuel work heap).run (firstSteps σ n)).result i = some shown :=
  working_results ho hi hd

/-- C90: the only race is on the prefixes of the SELECT clauses of the shared query builders. -/
theorem C90_own_and_shared_only_the_prefix_partial (L : GoLib) (owner : Nat → Option Nat) (work : List (List Job))
    (heap : List QB) (ho : Owned L owner work heap) (fuel : Nat) (schedule : List Nat) (i j : Nat) (f : Field)
    (hr : Races ((working L fuel work heap).run schedule) i j f) : f = .selectsPrefix := by
  obtain ⟨goal, h⟩ := ho.owning_any fuel
  exact (h.run schedule).race hr

/-! ## a case -/

/-- Makes a query on the query builder behind 0, builds it, changes it, and builds it again. -/
def firstJobs : List Job :=
  [.call 0 (.select [tableColumn (lit "u") (lit "id")]), .call 0 (.from_ ⟨lit "users", lit "u"⟩), .build (.qb 0) question,
   .call 0 (.where2 (tableColumn (lit "u") (lit "age")) (lit ">") (.int 64 18)), .build (.qb 0) dollar]

/-- Makes another query on the query builder behind 1, with Distinct and OrderBy, and builds it twice. -/
def secondJobs : List Job :=
  [.call 1 .distinct, .call 1 (.from_ ⟨lit "users", lit "u"⟩), .call 1 (.select [tableColumn (lit "u") (lit "id")]),
   .call 1 (.orderBy (tableColumn (lit "u") (lit "age")) 0), .build (.qb 1) question, .build (.qb 1) question]

def secondShown : List Shown :=
  [.called, .called, .called, .called,
   .built (.ok (lit "SELECT DISTINCT u.id, u.age AS _order_1 FROM users AS u ORDER BY _order_1 ASC", [])) [],
   .built (.ok (lit "SELECT DISTINCT u.id, u.age AS _order_1, u.age AS _order_1 FROM users AS u ORDER BY _order_1 ASC", [])) []]

/-- Makes a query on the query builder behind 1 that is united with the shared one behind 2. -/
def thirdJobs : List Job :=
  [.call 1 (.select [tableColumn (lit "u") (lit "id")]), .call 1 (.from_ ⟨lit "users", lit "u"⟩), .call 1 (.union [.qb 2]),
   .build (.qb 1) question]

def thirdShown : List Shown :=
  [.called, .called, .called,
   .built (.ok (lit ("SELECT u.id FROM users AS u UNION (With c AS (SELECT 1) SELECT u.id, u.name FROM users AS u " ++
      "LEFT JOIN c ON c.id = ? WHERE u.age > ? AND u.group IN (?, ?) GROUP BY u.id ORDER BY u.id DESC LIMIT 10 OFFSET 20 " ++
      "UNION (SELECT 2))"), [.int 64 7, .int 64 18, .int 64 1, .int 64 2])) []]

theorem new_parts (S : Nat → Prop) : ∀ c ∈ partsOf QB.new, RefsIn S c := by
  intro c hc
  have : partsOf QB.new = [] := by decide +kernel
  rw [this] at hc
  cases hc

/-- A table column refers to no query builder. -/
theorem tableColumn_refs (S : Nat → Prop) (t n : Str) : RefsIn S (tableColumn t n) := by
  show RefsInF S _
  exact trivial

/-- A fragment or column with at most one level of fragments in it, that are no query builders. -/
def flatPart : Builder → Bool
  | .frag f => f.frags.all leaf
  | .column _ f => f.frags.all leaf
  | _ => false
where leaf : Builder → Bool
  | .frag f => f.frags.isEmpty
  | .column _ f => f.frags.isEmpty
  | _ => false

theorem flatPart_refs (S : Nat → Prop) {c : Builder} (h : flatPart c = true) : RefsIn S c := by
  have leaf : ∀ c, flatPart.leaf c = true → RefsIn S c := by
    intro c h
    cases c with
    | frag f => exact (refsInF_iff f).2 (by rw [List.isEmpty_iff.1 h]; simp)
    | column t f => exact (refsInF_iff f).2 (by rw [List.isEmpty_iff.1 h]; simp)
    | _ => cases h
  cases c with
  | frag f => exact (refsInF_iff f).2 fun c hc => leaf c (List.all_eq_true.1 h c hc)
  | column t f => exact (refsInF_iff f).2 fun c hc => leaf c (List.all_eq_true.1 h c hc)
  | _ => cases h

/-- The query builder with all clauses refers to no query builder. -/
theorem fullQB_refs (S : Nat → Prop) : ∀ c ∈ partsOf fullQB, RefsIn S c := by
  have h : (partsOf fullQB).all flatPart = true := by decide +kernel
  exact fun c hc => flatPart_refs S (List.all_eq_true.1 h c hc)

/-- Two goroutines make and build a query builder each, taking turns at every access. -/
theorem two_at_work (L : GoLib) :
    Owned L (fun r => some (r % 2)) [firstJobs, secondJobs] [QB.new, QB.new] ∧
    DoneAlone L [QB.new, QB.new] secondJobs secondShown ∧
    ((working L 200 [firstJobs, secondJobs] [QB.new, QB.new]).run ((List.range 60).flatMap fun _ => [0, 1])).result 1 =
      some secondShown := by
  refine ⟨⟨?_, ?_, ?_, ?_, ?_⟩, doneAlone_of 200 (by kernel_rfl), by kernel_rfl⟩
  · intro r b h; cases h
  · intro r b h; cases h
  · intro r b i _ hb
    match r, hb with
    | 0, hb => cases hb; exact new_parts _
    | 1, hb => cases hb; exact new_parts _
    | r + 2, hb => cases hb
  · intro i jobs b style hi hb
    match i, hi with
    | 0, hi => cases hi; simp [firstJobs] at hb; rcases hb with ⟨rfl, -⟩ | ⟨rfl, -⟩ <;> exact .inr rfl
    | 1, hi => cases hi; simp [secondJobs] at hb; rw [hb.1]; exact .inr rfl
    | i + 2, hi => cases hi
  · intro i jobs r c hi hb
    match i, hi with
    | 0, hi =>
      cases hi
      simp [firstJobs] at hb
      rcases hb with ⟨rfl, rfl⟩ | ⟨rfl, rfl⟩ | ⟨rfl, rfl⟩ <;> refine ⟨rfl, ?_⟩ <;> simp [CallIn, tableColumn_refs]
    | 1, hi =>
      cases hi
      simp [secondJobs] at hb
      rcases hb with ⟨rfl, rfl⟩ | ⟨rfl, rfl⟩ | ⟨rfl, rfl⟩ | ⟨rfl, rfl⟩ <;> refine ⟨rfl, ?_⟩ <;> simp [CallIn, tableColumn_refs]
    | i + 2, hi => cases hi

/-- Whose query builders they are: the one behind 2 is shared. -/
def twoAndShared : Nat → Option Nat
  | 0 => some 0
  | 1 => some 1
  | _ => none

/-- One goroutine makes a query from the shared query builder while the other one builds it twice. -/
example (L : GoLib) :
    Owned L twoAndShared [[.build (.qb 2) dollar, .build (.qb 2) question], thirdJobs] [QB.new, QB.new, fullQB] ∧
    DoneAlone L [QB.new, QB.new, fullQB] thirdJobs thirdShown ∧
    ((working L 200 [[.build (.qb 2) dollar, .build (.qb 2) question], thirdJobs] [QB.new, QB.new, fullQB]).run
      ((List.range 60).flatMap fun _ => [0, 1])).result 1 = some thirdShown := by
  refine ⟨⟨?_, ?_, ?_, ?_, ?_⟩, doneAlone_of 200 (by kernel_rfl), by kernel_rfl⟩
  · intro r b h hb
    match r, h, hb with
    | 2, _, hb => cases hb; exact ⟨fullCalls, fullQB_made L, by decide +kernel, by decide +kernel⟩
    | r + 3, _, hb => cases hb
  · intro r b h hb
    match r, h, hb with
    | 2, _, hb =>
      cases hb
      exact fullQB_refs _
    | r + 3, _, hb => cases hb
  · intro r b i h hb
    match r, h, hb with
    | 0, _, hb => cases hb; exact new_parts _
    | 1, _, hb => cases hb; exact new_parts _
  · intro i jobs b style hi hb
    match i, hi with
    | 0, hi => cases hi; simp at hb; rcases hb with ⟨rfl, -⟩ | ⟨rfl, -⟩ <;> exact .inl rfl
    | 1, hi => cases hi; simp [thirdJobs] at hb; rw [hb.1]; exact .inr rfl
    | i + 2, hi => cases hi
  · intro i jobs r c hi hb
    match i, hi with
    | 0, hi => cases hi; simp at hb
    | 1, hi =>
      cases hi
      simp [thirdJobs] at hb
      rcases hb with ⟨rfl, rfl⟩ | ⟨rfl, rfl⟩ | ⟨rfl, rfl⟩ <;> refine ⟨rfl, ?_⟩ <;> simp [CallIn, tableColumn_refs, RefsIn]
      exact .inl rfl
    | i + 2, hi => cases hi

/-- A query builder that one goroutine changes while another one builds it: the query has the limit of the second
call, without the condition of the first, as no build before, between or after the calls has. -/
theorem C88_changed_while_built_counterexample (L : GoLib) :
    ∃ b b1 b2 where_ limit schedule, Call.apply b where_ = .ok b1 ∧ Call.apply b1 limit = .ok b2 ∧
      Returns L (.qb 0) question [b] (.ok (lit "SELECT u.id FROM users AS u", [])) ∧
      Returns L (.qb 0) question [b1] (.ok (lit "SELECT u.id FROM users AS u WHERE u.age>?", [.int 64 18])) ∧
      Returns L (.qb 0) question [b2] (.ok (lit "SELECT u.id FROM users AS u WHERE u.age>? LIMIT 1", [.int 64 18])) ∧
      ((working L 200 [[.build (.qb 0) question], [.call 0 where_, .call 0 limit]] [b]).run schedule).result 0 =
        some [.built (.ok (lit "SELECT u.id FROM users AS u LIMIT 1", [])) []] := by
  let start := match runCalls QB.new [.select [tableColumn (lit "u") (lit "id")], .from_ ⟨lit "users", lit "u"⟩] with
    | .ok b => b | _ => QB.new
  let where_ : Call := .where2 (tableColumn (lit "u") (lit "age")) (lit ">") (.int 64 18)
  let b1 := match Call.apply start where_ with | .ok b => b | _ => QB.new
  let b2 := match Call.apply b1 (.limit 1) with | .ok b => b | _ => QB.new
  exact ⟨start, b1, b2, where_, .limit 1, List.replicate 6 0 ++ List.replicate 4 1 ++ List.replicate 20 0, rfl, rfl,
    returns_of_buildQuery (n := 200) (by kernel_rfl) (by simp), returns_of_buildQuery (n := 200) (by kernel_rfl) (by simp),
    returns_of_buildQuery (n := 200) (by kernel_rfl) (by simp), by kernel_rfl⟩

end Sqlf.Props
