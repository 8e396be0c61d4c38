import Verif.Proofs.Taken
/-!
# C108, C109: the lists of arguments that are returned

`ctx.Args()` returns the slice of the argument store, and `BuildQuery` returns that of its own context.
-/

namespace Sqlf.Props

open Spec

/-! ## C108 -/

/-- **C108** Whatever is done with the arguments of other queries and contexts — elements assigned to, values appended,
contexts used further — a context whose lists the caller does not change has the arguments that were committed to
it, and the lists that come from it hold what they held, as if all lists were values. -/
theorem C108_arguments_are_separate (grow : Nat → Nat) (c : Nat) (os : List AOp) (h : Untouched c os) :
    storeAt (slicesAfter grow os) c = (valuesAfter os).stores[c]? ∧
    ∀ (t : Nat) (xs : List Val), (valuesAfter os).lists[t]? = some (c, xs) → listAt (slicesAfter grow os) t = some (c, xs) := by
  obtain ⟨-, hs⟩ := taken_same grow c os h
  refine ⟨hs.store, fun t xs ht => ?_⟩
  have ho := congrArg (·[t]?) hs.origins
  simp only [List.getElem?_map, ht, Option.map_some] at ho
  cases hm : (slicesAfter grow os).lists[t]? with
  | none => rw [hm] at ho; cases ho
  | some y =>
    obtain ⟨d, l⟩ := y
    rw [hm] at ho
    simp only [Option.map_some, Option.some.injEq] at ho
    subst ho
    have := hs.list t l hm
    rw [ht] at this
    unfold listAt
    rw [hm]
    exact this.symm

private def v (n : Nat) : Val := .uint 0 n

/-- Two queries; the arguments of the first one are appended to twice and changed. -/
private def twoQueries : List AOp :=
  [.new dollar, .commit 0 (v 1), .new question, .commit 1 (v 2), .commit 0 (v 3), .args 0, .append 0 [v 8], .commit 1 (v 2), .args 1,
   .assign 0 1 (v 9), .append 0 [v 7, v 6]]

private theorem untouched_of {c : Nat} {os : List AOp} (h : ∀ k < os.length, ∀ o, os[k]? = some o → ¬ ListChanged (valuesAfter (os.take k)) c o) :
    Untouched c os := by
  rintro pre o post rfl
  have := h pre.length (by simp) o (by simp)
  rwa [List.take_left] at this

example : Untouched 1 twoQueries ∧ ¬ Untouched 0 twoQueries ∧
    listAt (slicesAfter (fun n => n) twoQueries) 2 = some (1, [v 2, v 2]) ∧
    (listAt (slicesAfter (fun n => n) twoQueries) 0).map (·.1) = some 0 := by
  have hu : Untouched 1 twoQueries := by
    refine untouched_of fun k hk o ho => ?_
    have hk : k < 11 := hk
    rcases (by omega : k < 6 ∨ k = 6 ∨ k = 7 ∨ k = 8 ∨ k = 9 ∨ k = 10) with h | rfl | rfl | rfl | rfl | rfl
    · rcases (by omega : k = 0 ∨ k = 1 ∨ k = 2 ∨ k = 3 ∨ k = 4 ∨ k = 5) with rfl | rfl | rfl | rfl | rfl | rfl <;>
        (cases ho; exact id)
    all_goals
      cases ho
      first
        | exact id
        | (rintro ⟨l, hl⟩; exact absurd (show _ = some 1 from congrArg (Option.map (·.1)) hl) (by decide +kernel))
  refine ⟨hu, fun h => h [.new dollar, .commit 0 (v 1), .new question, .commit 1 (v 2), .commit 0 (v 3), .args 0] _ _ rfl ⟨_, rfl⟩,
    (C108_arguments_are_separate _ 1 _ hu).2 2 _ rfl, rfl⟩

/-! ## C109 -/

private theorem lists_after (c : Nat) (t : Nat) (xs : List Val) (after : List AOp) : ∀ before, Untouched c (before ++ after) →
    (valuesAfter before).lists[t]? = some (c, xs) → (valuesAfter (before ++ after)).lists[t]? = some (c, xs) := by
  induction after with
  | nil => intro before _ h; rw [List.append_nil]; exact h
  | cons o after ih =>
    intro before hu h
    have ho := hu before o after rfl
    have he : before ++ o :: after = (before ++ [o]) ++ after := by simp
    rw [he] at hu ⊢
    refine ih _ hu ?_
    rw [show valuesAfter (before ++ [o]) = valuesStep (valuesAfter before) o by simp [valuesAfter, List.foldl_append]]
    revert ho h
    generalize valuesAfter before = m
    intro h ho
    have hlt := (List.getElem?_eq_some_iff.1 h).1
    cases o with
    | new style => exact h
    | commit i x =>
      simp only [valuesStep]
      split
      · exact h
      · split <;> exact h
    | args i =>
      simp only [valuesStep]
      split
      · exact h
      · exact (List.getElem?_append_left hlt).trans h
    | assign u i x =>
      simp only [valuesStep]
      split
      · exact h
      · next d l hl =>
        by_cases hu : u = t
        · subst hu
          rw [h] at hl
          cases hl
          exact absurd ⟨_, h⟩ ho
        · exact (List.getElem?_set_ne hu).trans h
    | append u ys =>
      simp only [valuesStep]
      split
      · exact h
      · exact (List.getElem?_append_left hlt).trans h

/-- **C109** (partial) A list that `Args` returned holds the arguments committed until then, whatever is committed later, as long
as the caller changes none of the lists of this context.  Missing: changed lists, see the counterexamples. -/
theorem C109_args_is_a_snapshot_partial (grow : Nat → Nat) (c : Nat) (before after : List AOp) (s : Store)
    (hs : (valuesAfter before).stores[c]? = some s) (h : Untouched c (before ++ .args c :: after)) :
    listAt (slicesAfter grow (before ++ .args c :: after)) (valuesAfter before).lists.length = some (c, s.args) := by
  refine (C108_arguments_are_separate grow c _ h).2 _ _ ?_
  have he : before ++ AOp.args c :: after = (before ++ [AOp.args c]) ++ after := by simp
  rw [he] at h ⊢
  refine lists_after c _ _ _ _ h ?_
  rw [show valuesAfter (before ++ [.args c]) = valuesStep (valuesAfter before) (.args c) by simp [valuesAfter, List.foldl_append]]
  simp [valuesStep, hs]

/-- Arguments are committed after `Args`, into the spare room of the slice. -/
example : Untouched 0 [.new question, .commit 0 (v 1), .args 0, .commit 0 (v 2)] ∧
    listAt (slicesAfter (fun n => n) [.new question, .commit 0 (v 1), .args 0, .commit 0 (v 2)]) 0 = some (0, [v 1]) := by
  have hu : Untouched 0 [.new question, .commit 0 (v 1), .args 0, .commit 0 (v 2)] := by
    refine untouched_of fun k hk o ho => ?_
    have hk : k < 4 := hk
    rcases (by omega : k = 0 ∨ k = 1 ∨ k = 2 ∨ k = 3) with rfl | rfl | rfl | rfl <;> (cases ho; exact id)
  exact ⟨hu, C109_args_is_a_snapshot_partial _ 0 [.new question, .commit 0 (v 1)] [.commit 0 (v 2)] _ rfl hu⟩

/-- **C109** is false of the code: appending to a list returned earlier replaces an argument of the context: the second
argument that is sent is 9, not 2. -/
theorem C109_append_counterexample : ∃ (os : List AOp) (x : Val),
    (storeAt (slicesAfter (fun _ => 1) os) 0).map (·.args) = some [.uint 0 1, .uint 0 2] ∧
    (storeAt (slicesAfter (fun _ => 1) (os ++ [AOp.append 0 [x]])) 0).map (·.args) = some [.uint 0 1, .uint 0 9] :=
  ⟨[.new question, .commit 0 (v 1), .args 0, .commit 0 (v 2)], v 9, rfl, rfl⟩

/-- **C109** is false of the code: assigning to an element of the list changes what a placeholder stands for; in the Dollar
style committing the old value again still gives the placeholder `$1`. -/
theorem C109_assign_counterexample : ∃ (os : List AOp) (x : Val),
    (storeAt (slicesAfter (fun _ => 1) os) 0).map (·.args) = some [.uint 0 1] ∧
    (storeAt (slicesAfter (fun _ => 1) (os ++ [AOp.assign 0 0 x])) 0).map (·.args) = some [.uint 0 9] ∧
    ((storeAt (slicesAfter (fun _ => 1) (os ++ [AOp.assign 0 0 x])) 0).bind (·.commit (.uint 0 1))).map (·.1) = some (lit "$1") :=
  ⟨[.new dollar, .commit 0 (v 1), .args 0], v 9, rfl, rfl, by decide +kernel⟩

end Sqlf.Props
