import Verif.Proofs.History
import Verif.Proofs.Store
import Verif.Proofs.GoEqual
import Verif.Model.Eval
import Verif.KernelRfl
/-!
# C13 – C17: the argument stores

`Spec.commitAll s vs` (`Verif.Spec.History`) commits `vs` in order and collects the placeholders.
-/

namespace Sqlf.Props

open Spec

/-- **C13** In every style but Dollar, committing any values in any order never fails, yields the
placeholder `?` for each, and the argument list is exactly the committed values in order. -/
theorem C13_question_keeps_order (style : Style) (hs : style ≠ dollar) (vs : List Val) :
    ∃ s', commitAll (Store.new style) vs = some (List.replicate vs.length (lit "?"), s') ∧
      s'.args = vs := by
  have key : ∀ (vs : List Val) (s : Store), s.isDollar = false →
      ∃ s', commitAll s vs = some (List.replicate vs.length (lit "?"), s') ∧
        s'.args = s.args ++ vs := by
    intro vs
    induction vs with
    | nil => intro s _; exact ⟨s, rfl, by simp⟩
    | cons v vs ih =>
      intro s hd
      obtain ⟨s', h1, h2⟩ := ih { s with args := s.args ++ [v] } hd
      refine ⟨s', ?_, by rw [h2]; simp⟩
      have hc : s.commit v = some (lit "?", { s with args := s.args ++ [v] }) := by
        simp [Store.commit, hd]
      simp [commitAll, hc, h1, List.replicate_succ]
  obtain ⟨s', h1, h2⟩ := key vs (Store.new style) (by simp [Store.new, hs])
  exact ⟨s', h1, by simpa [Store.new] using h2⟩

example : question ≠ dollar := by decide

/-- **C14** In the Dollar style, after any history of commits `vs` and any later history `ws`: the
placeholder returned for the `i`-th committed value is `$n` with `1 ≤ n ≤` the number of
arguments, and the `n`-th argument is that value (or one equal to it in Go) – at that time and
still after the later commits. -/
theorem C14_dollar_placeholders_stable (vs ws : List Val) (ps qs : List Str) (s s' : Store)
    (h : commitAll (Store.new dollar) vs = some (ps, s)) (h' : commitAll s ws = some (qs, s'))
    (i : Nat) (v : Val) (hv : vs[i]? = some v) :
    ∃ (n : Nat) (w : Val), ps[i]? = some (dollarMark n) ∧ 1 ≤ n ∧ n ≤ s.args.length ∧
      s.args[n - 1]? = some w ∧ s'.args[n - 1]? = some w ∧ (w = v ∨ GoEqual w v) := by
  simp only [goEqual_iff]
  obtain ⟨k, w, h1, h2, h3⟩ := commitAll_resolve (Store.new_inv dollar) rfl h i v hv
  refine ⟨k + 1, w, h1, by omega, ?_, by simpa using h2, ?_, h3⟩
  · have := (List.getElem?_eq_some_iff.mp h2).1; omega
  · simpa using getElem?_prefix (commitAll_prefix h').1 h2

/-- A Dollar history of hashable values never fails. -/
theorem C14_dollar_commit_succeeds (vs : List Val) (hh : ∀ v ∈ vs, ¬ Unhashable v) (s : Store) :
    ∃ ps s', commitAll s vs = some (ps, s') := by
  simp only [not_unhashable_iff] at hh
  induction vs generalizing s with
  | nil => exact ⟨[], s, rfl⟩
  | cons v vs ih =>
    have h1 : ∃ p s1, s.commit v = some (p, s1) := by
      unfold Store.commit
      split
      · simp [hh v (by simp)]
        split <;> exact ⟨_, _, rfl⟩
      · exact ⟨_, _, rfl⟩
    obtain ⟨p, s1, h1⟩ := h1
    obtain ⟨ps, s', h2⟩ := ih s1 fun u hu => hh u (by simp [hu])
    exact ⟨p :: ps, s', by simp [commitAll, h1, h2]⟩

/-- Two equal ints, a string and a NaN committed: `$1 $1 $2 $3`. -/
example : (commitAll (Store.new dollar)
    [.int 0 7, .int 0 7, .str 0 (lit "a"), .float 0 ⟨true, 0, 0⟩]).map (·.1)
    = some [lit "$1", lit "$1", lit "$2", lit "$3"] := by decide +kernel

/-- **C15** In the Dollar style two different commits get the same placeholder exactly if their
values are equal in Go, and no two arguments of the list are equal in Go. -/
theorem C15_dollar_merges_equal_only (vs : List Val) (ps : List Str) (s : Store)
    (h : commitAll (Store.new dollar) vs = some (ps, s)) :
    (∀ (i j : Nat) (v w : Val), i ≠ j → vs[i]? = some v → vs[j]? = some w →
      (ps[i]? = ps[j]? ↔ GoEqual v w)) ∧
    (∀ (i j : Nat) (v w : Val), i ≠ j → s.args[i]? = some v → s.args[j]? = some w →
      ¬ GoEqual v w) := by
  simp only [not_goEqual_iff]
  simp only [goEqual_iff]
  have hi := Store.new_inv dollar
  constructor
  · intro i j v w hij hv hw
    by_cases hlt : i < j
    · exact commitAll_merge hi rfl h i j v w hlt hv hw
    · have := commitAll_merge hi rfl h j i w v (by omega) hw hv
      rw [eq_comm, this, goEq_comm]
  · exact Store.args_distinct (commitAll_inv hi h) (commitAll_prefix h).2

/-- The type matters: `int(1)` and `int64(1)` are different arguments. -/
example : (commitAll (Store.new dollar) [.int 0 1, .int 1 1]).map (·.1)
    = some [lit "$1", lit "$2"] := by decide +kernel

/-- **C16** (partial) A Dollar commit panics exactly on unhashable values. Missing for the full
property: unhashable values that databases accept, such as `[]byte`, see the counterexample. -/
theorem C16_dollar_commit_panics_iff_unhashable_partial (s : Store) (hd : s.isDollar = true)
    (v : Val) : s.commit v = none ↔ Unhashable v := by
  rw [unhashable_iff]
  unfold Store.commit
  simp only [hd, if_true]
  cases v.hashable
  · simp
  · simp; split <;> simp

example : ¬ Unhashable (.str 0 (lit "x")) ∧ Unhashable (.array 1 [.int 0 1, .slice 2 []]) :=
  ⟨(nomatch ·), .array _ _ (.slice 2 []) (by simp) (.slice ..)⟩

/-- **C16** is false: building `Fa("$1", []byte("a"))` in the Dollar style panics, and in the
Question style it does not. -/
theorem C16_dollar_bytes_panic_counterexample (L : GoLib) :
    buildQuery L 10 (.frag (.Fa (lit "$1") [.slice 9 [.uint 8 0x61]])) dollar
      = .panic .unhashableKey ∧
    buildQuery L 10 (.frag (.Fa (lit "$1") [.slice 9 [.uint 8 0x61]])) question
      = .ok (lit "?", [.slice 9 [.uint 8 0x61]]) := by
  constructor <;> kernel_rfl

/-- **C17** Every style other than Dollar gives the same build – result, arguments, and effects on
query builders – as Question. -/
theorem C17_other_styles_are_question (L : GoLib) (fuel : Nat) (b : Builder) (style : Style)
    (heap : List QB) (hs : style ≠ dollar) :
    buildQueryS L fuel b style heap = buildQueryS L fuel b question heap := by
  have : St.init style heap = St.init question heap := by
    have h : question ≠ dollar := by decide
    simp [St.init, Store.new, hs, h]
  simp [buildQueryS, this]

/-- Style 5 builds question marks. -/
example (L : GoLib) : buildQuery L 10 (.frag (.Fa (lit "a=$1") [.int 0 1])) 5
    = .ok (lit "a=?", [.int 0 1]) := by kernel_rfl

end Sqlf.Props
