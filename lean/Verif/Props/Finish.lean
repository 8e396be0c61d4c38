import Verif.Proofs.Finish
import Verif.Props.Jobs
import Verif.Props.Halting
/-!
# C115: programs end
-/

namespace Sqlf.Props

open Spec

/-- **C115** A program that calls methods of query builders and builds queries, in any order and any number, ends, when it
never puts a query builder into one that it contains (so that they can be numbered) and adds tame functions only: each
call returns or panics, and each build returns, or panics and so ends the program. -/
theorem C115_programs_end (L : GoLib) (rank : Nat → Nat) (heap : List QB) (hh : Below rank heap) (jobs : List Job)
    (hj : ∀ j ∈ jobs, JobTame rank j) (hr : ∀ r c, .call r c ∈ jobs → r < heap.length) : ∃ shown, DoneAlone L heap jobs shown :=
  jobs_end jobs hj heap hh hr

/-- **C115** The same from the start: with `n` new query builders. -/
theorem C115_programs_end_from_new (L : GoLib) (rank : Nat → Nat) (n : Nat) (jobs : List Job) (hj : ∀ j ∈ jobs, JobTame rank j)
    (hr : ∀ r c, .call r c ∈ jobs → r < n) : ∃ shown, DoneAlone L (List.replicate n QB.new) jobs shown := by
  refine C115_programs_end L rank _ (fun r b hb c hc => ?_) jobs hj (by simpa using hr)
  have hb : b = QB.new := by
    rw [List.getElem?_replicate] at hb
    split at hb
    · cases hb; rfl
    · cases hb
  subst hb
  have : partsOf QB.new = [] := rfl
  rw [this] at hc
  cases hc

/-- **C115** Goroutines with such programs, that change only query builders of their own and share others that none of them
changes, all end, if their turns come again and again, and show what their programs show alone. -/
theorem C115_goroutines_end (L : GoLib) (rank : Nat → Nat) (owner : Nat → Option Nat) (work : List (List Job)) (heap : List QB)
    (hh : Below rank heap) (ho : Owned L owner work heap) (i : Nat) (jobs : List Job) (hi : work[i]? = some jobs)
    (hj : ∀ j ∈ jobs, JobTame rank j) (hr : ∀ r c, .call r c ∈ jobs → r < heap.length) :
    ∃ shown, DoneAlone L heap jobs shown ∧ ∃ N, ∀ fuel, N ≤ fuel →
      ∀ σ : Nat → Nat, Fair σ i → ∃ n, ((working L fuel work heap).run (firstSteps σ n)).result i = some shown := by
  obtain ⟨shown, hd⟩ := C115_programs_end L rank heap hh jobs hj hr
  obtain ⟨N, h⟩ := working_results ho hi hd
  exact ⟨shown, hd, N, fun fuel hf => (h fuel hf).2⟩

/-- Makes a query builder and builds it, makes another one with the first in a CTE and in a union, and builds that. -/
def twoSteps : List Job :=
  [.call 0 (.select [tableColumn (lit "u") (lit "id")]), .call 0 (.from_ ⟨lit "users", lit "u"⟩), .build (.qb 0) question,
   .call 1 (.with_ (lit "x") (.qb 0) []), .call 1 (.select [tableColumn (lit "x") (lit "id")]), .call 1 (.from_ ⟨lit "x", []⟩),
   .call 1 (.union [.qb 0]), .build (.qb 1) dollar]

example (L : GoLib) : (∀ j ∈ twoSteps, JobTame id j) ∧ (∀ r c, .call r c ∈ twoSteps → r < 2) ∧
    DoneAlone L (List.replicate 2 QB.new) twoSteps [.called, .called, .built (.ok (lit "SELECT u.id FROM users AS u", [])) [],
      .called, .called, .called, .called,
      .built (.ok (lit "With x AS (SELECT u.id FROM users AS u) SELECT x.id FROM x UNION (SELECT u.id FROM users AS u)", [])) []] := by
  refine ⟨fun j hj => ?_, fun r c h => ?_, doneAlone_of 200 (by kernel_rfl)⟩
  · simp only [twoSteps, List.mem_cons, List.not_mem_nil, or_false] at hj
    rcases hj with rfl | rfl | rfl | rfl | rfl | rfl | rfl | rfl
    · exact fun c hc => by cases List.mem_singleton.1 hc; exact ⟨trivial, trivial⟩
    · trivial
    · trivial
    · exact ⟨Nat.zero_lt_one, trivial⟩
    · exact fun c hc => by cases List.mem_singleton.1 hc; exact ⟨trivial, trivial⟩
    · trivial
    · exact fun c hc => by cases List.mem_singleton.1 hc; exact ⟨Nat.zero_lt_one, trivial⟩
    · trivial
  · simp only [twoSteps, List.mem_cons, List.not_mem_nil, or_false] at h
    rcases h with h | h | h | h | h | h | h | h <;> cases h <;> omega

/-- The two goroutines of `two_at_work`. -/
example (L : GoLib) : Below id [QB.new, QB.new] ∧ Owned L (fun r => some (r % 2)) [firstJobs, secondJobs] [QB.new, QB.new] ∧
    (∀ j ∈ secondJobs, JobTame id j) ∧ ∀ r c, .call r c ∈ secondJobs → r < 2 := by
  refine ⟨fun r b hb c hc => ?_, (two_at_work L).1, fun j hj => ?_, fun r c h => ?_⟩
  · have hb : b = QB.new := by
      match r, hb with
      | 0, hb => cases hb; rfl
      | 1, hb => cases hb; rfl
      | r + 2, hb => cases hb
    subst hb
    have : partsOf QB.new = [] := rfl
    rw [this] at hc
    cases hc
  · simp only [secondJobs, List.mem_cons, List.not_mem_nil, or_false] at hj
    rcases hj with rfl | rfl | rfl | rfl | rfl | rfl
    · trivial
    · trivial
    · exact fun c hc => by cases List.mem_singleton.1 hc; exact ⟨trivial, trivial⟩
    · exact ⟨trivial, trivial⟩
    · trivial
    · trivial
  · simp only [secondJobs, List.mem_cons, List.not_mem_nil, or_false] at h
    rcases h with h | h | h | h | h | h <;> cases h <;> omega

end Sqlf.Props
