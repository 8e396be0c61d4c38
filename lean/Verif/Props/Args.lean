import Verif.Proofs.Tidy
import Verif.Props.Build
/-!
# C20, C32: placeholders and arguments
-/

namespace Sqlf.Props

open Spec

/-- **C20** In the Question style the marks of the query are, in order, the first, the second, …
argument, each is written `?`, and there are no other arguments.  (`_partial`: for trees in which
no `#join` commits values and then drops the item, see `C20_join_leak_counterexample`.) -/
theorem C20_question_one_to_one_partial (L : GoLib) (b : Builder)
    (ht : tidy L (fun s => (parse L s).toOption) (cannotCommit question) b = true) (heap : List QB)
    (q : Str) (as : List Val) (h : Returns L b question heap (.ok (q, as))) :
    ∃ d, meaningOf L question b = (.ok d, as) ∧ binds d = List.range as.length ∧
      q = renderDoc (List.replicate as.length (lit "?")) d := by
  obtain ⟨d, log, ps, st, h1, h2, h3, rfl, rfl⟩ := returns_ok (tidy_isTree _ _ _ b ht) h
  rw [commitAll_question _ _ rfl] at h2
  cases h2
  refine ⟨d, h1, ?_, rfl⟩
  obtain ⟨δ, h4, h5⟩ := sem_clean (E := Eq) L _ _ b ht []
  unfold meaningOf at h1
  rw [h1] at h4 h5
  simp only [List.nil_append] at h4
  subst h4
  rw [h5 d rfl, List.range_eq_range']
  rfl

/-- The sample meets the hypotheses. -/
example (L : GoLib) :
    tidy L (fun s => (parse L s).toOption) (cannotCommit question) sampleTree = true ∧
    Returns L sampleTree question [] (.ok (lit "WHERE t.id = ? AND x IN (?, ?) u AND y > ?",
      [.int 64 7, .int 64 7, .str 0 (lit "a"), .int 64 7])) :=
  ⟨by kernel_rfl, returns_of_buildQuery (n := 200) (by kernel_rfl) (by simp)⟩

/-- The full C20 and C32 fail: the iteration that ends a `#join` leaves its argument behind. -/
theorem C20_join_leak_counterexample (L : GoLib) :
    Returns L (.frag (.mk (lit "#join('#arg #f', ', ')") [.int 64 1, .int 64 2] [.table (lit "x")] [] []))
      question [] (.ok (lit "? x", [.int 64 1, .int 64 2])) :=
  returns_of_buildQuery (n := 200) (by kernel_rfl) (by simp)

/-- **C32** In the Dollar style every argument has a placeholder in the query (in the Question
style this is part of C20).  (`_partial`: for tidy trees, see
`C32_join_leak_counterexample`.) -/
theorem C32_no_argument_without_placeholder_partial (L : GoLib) (b : Builder)
    (ht : tidy L (fun s => (parse L s).toOption) (cannotCommit dollar) b = true) (heap : List QB)
    (q : Str) (as : List Val) (h : Returns L b dollar heap (.ok (q, as))) :
    ∃ d vs ps, meaningOf L dollar b = (.ok d, vs) ∧ q = renderDoc ps d ∧
      ∀ n, 1 ≤ n → n ≤ as.length → ∃ k ∈ binds d, ps[k]? = some (dollarMark n) := by
  obtain ⟨d, log, ps, st, h1, h2, h3, rfl, rfl⟩ := returns_ok (tidy_isTree _ _ _ b ht) h
  refine ⟨d, log, ps, h1, rfl, fun n hn1 hn2 => ?_⟩
  obtain ⟨δ, h4, h5⟩ := sem_clean (E := Eq) L _ _ b ht []
  unfold meaningOf at h1
  rw [h1] at h4 h5
  simp only [List.nil_append] at h4
  subst h4
  obtain ⟨k, hk⟩ := commitAll_covers rfl (Store.new_inv dollar) h2 n (by simp [Store.new]; omega) hn2
  refine ⟨k, ?_, hk⟩
  rw [h5 d rfl, List.mem_range']
  have := (List.getElem?_eq_some_iff.1 hk).1
  rw [commitAll_length h2] at this
  exact ⟨k, this, by simp⟩

example (L : GoLib) :
    tidy L (fun s => (parse L s).toOption) (cannotCommit dollar) sampleTree = true ∧
    Returns L sampleTree dollar [] (.ok (lit "WHERE t.id = $1 AND x IN ($1, $2) u AND y > $1",
      [.int 64 7, .str 0 (lit "a")])) :=
  ⟨by kernel_rfl, returns_of_buildQuery (n := 200) (by kernel_rfl) (by simp)⟩

/-- The full C32 fails. -/
theorem C32_join_leak_counterexample (L : GoLib) :
    Returns L (.frag (.mk (lit "#join('#arg #f', ', ')") [.int 64 1, .int 64 2] [.table (lit "x")] [] []))
      dollar [] (.ok (lit "$1 x", [.int 64 1, .int 64 2])) :=
  returns_of_buildQuery (n := 200) (by kernel_rfl) (by simp)

end Sqlf.Props
