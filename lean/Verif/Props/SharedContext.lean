import Verif.Proofs.SharedContext
import Verif.Proofs.History
import Verif.KernelRfl
/-!
# C118: contexts shared by goroutines
-/

namespace Sqlf.Props

open Spec

/-- C118, for calls that do not overlap (say, since the goroutines hold a mutex): whenever no goroutine is in a call, the
goroutines got from their calls of `CommitArg` what the calls give one after the other, in some order that keeps the
order of each goroutine, and the context has the arguments that it has after these.
Missing: calls that overlap, for which this fails (see the counterexamples). -/
theorem C118_one_at_a_time_partial (st0 : Store) (work : Nat → List Val) (schedule : List Nat)
    (hone : OneAtATime (sharing st0 work) schedule)
    (hout : ∀ i, ¬ Committer.Inside (((sharing st0 work).run schedule).gs i)) :
    InSomeOrder st0 work ((sharing st0 work).run schedule) := by
  obtain ⟨log, st, h⟩ := calm_run (calm_start st0 work) schedule hone
  exact ⟨log, by rw [h.calm hout]; exact h.calls, h.done⟩

/-- Goroutine 0 commits `a`, goroutine 1 commits `b`. -/
private def two (a b : Val) : Nat → List Val := fun i => if i = 0 then [a] else if i = 1 then [b] else []

private theorem mem_of_byGoroutine {log : List (Nat × Val × Str)} {i : Nat} {v : Val} {m : Str}
    (h : [v] = (byGoroutine log i).map (·.1)) (h' : [m] = (byGoroutine log i).map (·.2)) : (i, v, m) ∈ log := by
  match hb : byGoroutine log i with
  | [] => rw [hb] at h; cases h
  | x :: xs =>
    rw [hb] at h h'
    simp only [List.map_cons, List.cons.injEq] at h h'
    have hx : x ∈ byGoroutine log i := by rw [hb]; exact List.mem_cons_self
    unfold byGoroutine at hx
    obtain ⟨y, hy, rfl⟩ := List.mem_map.1 hx
    have := List.mem_filter.1 hy
    have hi : y.1 = i := by simpa using this.2
    have : y = (i, v, m) := by rw [← hi, h.1, h'.1]
    exact this ▸ (List.mem_filter.1 hy).1

/-- C118 fails with the style `?`: of any two values that two goroutines commit, one can be lost.  Both get `?`, and the
context has the other value only. -/
theorem C118_lost_argument_counterexample (a b : Val) :
    ∃ schedule, let s := (sharing (Store.new question) (two a b)).run schedule
      (∀ i, ¬ Committer.Inside (s.gs i) ∧ (s.gs i).todo = []) ∧ (s.gs 0).got = [lit "?"] ∧ (s.gs 1).got = [lit "?"] ∧
      s.store.args = [b] ∧ ¬ InSomeOrder (Store.new question) (two a b) s := by
  have hq : (Store.new question).isDollar = false := by decide
  refine ⟨[0, 1, 0, 1], ?_⟩
  have h0 : ((sharing (Store.new question) (two a b)).run [0, 1, 0, 1]).gs 0 = ⟨[], .outside, [lit "?"]⟩ := by
    simp [Sharing.run, Sharing.step, sharing, commitStep, two, hq]
  have h1 : ((sharing (Store.new question) (two a b)).run [0, 1, 0, 1]).gs 1 = ⟨[], .outside, [lit "?"]⟩ := by
    simp [Sharing.run, Sharing.step, sharing, commitStep, two, hq]
  have hs : ((sharing (Store.new question) (two a b)).run [0, 1, 0, 1]).store.args = [b] := by
    simp [Sharing.run, Sharing.step, sharing, commitStep, two, hq]
    rfl
  refine ⟨fun i => ?_, by rw [h0], by rw [h1], hs, ?_⟩
  · by_cases e0 : i = 0
    · rw [e0, h0]; exact ⟨fun h => h.1 rfl, rfl⟩
    · by_cases e1 : i = 1
      · rw [e1, h1]; exact ⟨fun h => h.1 rfl, rfl⟩
      · have : ((sharing (Store.new question) (two a b)).run [0, 1, 0, 1]).gs i = ⟨[], .outside, []⟩ := by
          simp [Sharing.run, Sharing.step, sharing, two, e0, e1]
        rw [this]; exact ⟨fun h => h.1 rfl, rfl⟩
  · rintro ⟨log, hc, hl⟩
    have m0 := hl 0
    have m1 := hl 1
    rw [h0] at m0
    rw [h1] at m1
    simp only [two, List.append_nil] at m0 m1
    have m0 := mem_of_byGoroutine m0.1 m0.2
    have m1 := mem_of_byGoroutine m1.1 m1.2
    rw [commitAll_question _ _ hq] at hc
    simp only [Option.some.injEq, Prod.mk.injEq] at hc
    have hlen := congrArg (fun st => st.args.length) hc.2
    rw [hs] at hlen
    simp only [Store.new, List.nil_append, List.length_map, List.length_cons, List.length_nil] at hlen
    match log, hlen with
    | [x], _ =>
      have e0 := List.mem_singleton.1 m0
      have e1 := List.mem_singleton.1 m1
      rw [← e0] at e1
      cases e1

/-- C118 fails with the style `$1`: any two different values that two goroutines commit can get the same placeholder,
which then stands for one of them; the other is lost. -/
theorem C118_same_placeholder_counterexample (a b : Val) (ha : a.hashable = true) (hb : b.hashable = true)
    (hab : a.goEq b = false) (hba : b.goEq a = false) :
    ∃ schedule, let s := (sharing (Store.new dollar) (two a b)).run schedule
      (∀ i, ¬ Committer.Inside (s.gs i) ∧ (s.gs i).todo = []) ∧ (s.gs 0).got = [lit "$1"] ∧ (s.gs 1).got = [lit "$1"] ∧
      s.store.args = [b] ∧ ¬ InSomeOrder (Store.new dollar) (two a b) s := by
  have hd : (Store.new dollar).isDollar = true := by decide
  have hm : lit "$" ++ natDigits 1 = lit "$1" := by kernel_rfl
  have hn : ∀ v, dictLookup (Store.new dollar).dict v = none := fun v => rfl
  have hl : (Store.new dollar).args = [] := rfl
  refine ⟨[0, 1, 0, 1, 0, 1, 0, 1, 0, 1], ?_⟩
  have h0 : ((sharing (Store.new dollar) (two a b)).run [0, 1, 0, 1, 0, 1, 0, 1, 0, 1]).gs 0 = ⟨[], .outside, [lit "$1"]⟩ := by
    simp [Sharing.run, Sharing.step, sharing, commitStep, two, hd, ha, hb, hn, hl, hm]
  have h1 : ((sharing (Store.new dollar) (two a b)).run [0, 1, 0, 1, 0, 1, 0, 1, 0, 1]).gs 1 = ⟨[], .outside, [lit "$1"]⟩ := by
    simp [Sharing.run, Sharing.step, sharing, commitStep, two, hd, ha, hb, hn, hl, hm]
  have hs : ((sharing (Store.new dollar) (two a b)).run [0, 1, 0, 1, 0, 1, 0, 1, 0, 1]).store.args = [b] := by
    simp [Sharing.run, Sharing.step, sharing, commitStep, two, hd, ha, hb, hn, hl, hm]
  refine ⟨fun i => ?_, by rw [h0], by rw [h1], hs, ?_⟩
  · by_cases e0 : i = 0
    · rw [e0, h0]; exact ⟨fun h => h.1 rfl, rfl⟩
    · by_cases e1 : i = 1
      · rw [e1, h1]; exact ⟨fun h => h.1 rfl, rfl⟩
      · have : ((sharing (Store.new dollar) (two a b)).run [0, 1, 0, 1, 0, 1, 0, 1, 0, 1]).gs i = ⟨[], .outside, []⟩ := by
          simp [Sharing.run, Sharing.step, sharing, two, e0, e1]
        rw [this]; exact ⟨fun h => h.1 rfl, rfl⟩
  · rintro ⟨log, hc, hl⟩
    have m0 := hl 0
    have m1 := hl 1
    rw [h0] at m0
    rw [h1] at m1
    simp only [two, List.append_nil] at m0 m1
    obtain ⟨i, hi⟩ := List.mem_iff_getElem?.1 (mem_of_byGoroutine m0.1 m0.2)
    obtain ⟨j, hj⟩ := List.mem_iff_getElem?.1 (mem_of_byGoroutine m1.1 m1.2)
    have merge := commitAll_merge (Store.new_inv dollar) hd hc
    rcases Nat.lt_trichotomy i j with h | h | h
    · have := (merge i j a b h (by simp [hi]) (by simp [hj])).1 (by simp [hi, hj])
      rw [hab] at this; cases this
    · rw [h, hj] at hi; cases hi
    · have := (merge j i b a h (by simp [hj]) (by simp [hi])).1 (by simp [hi, hj])
      rw [hba] at this; cases this

/-- The hypotheses of the counterexample are met by two numbers. -/
example : ∃ a b : Val, a.hashable = true ∧ b.hashable = true ∧ a.goEq b = false ∧ b.goEq a = false :=
  ⟨.int 0 1, .int 0 2, by decide⟩

private theorem idle_run {s : Sharing} {j : Nat} (h : s.gs j = ⟨[], .outside, []⟩) (l : List Nat) :
    (s.run l).gs j = ⟨[], .outside, []⟩ := by
  induction l generalizing s with
  | nil => exact h
  | cons i rest ih =>
    refine ih (s := s.step i) ?_
    unfold Sharing.step
    by_cases e : j = i
    · subst e; simp [h, commitStep]
    · simp [e, h]

private def isOutside (g : Committer) : Bool := match g.phase with | .outside => true | _ => false

private theorem not_inside {g : Committer} (h : isOutside g = true) : ¬ Committer.Inside g := by
  intro hi
  unfold isOutside at h
  split at h
  · next e => exact hi.1 e
  · cases h

private def work2 : Nat → List Val := fun i => if i = 0 then [.int 0 1] else if i = 1 then [.int 0 1, .int 0 2] else []

/-- Those of the theorem are met by goroutines of which the one goes on when the other has returned: goroutine 1 gets `$1`
for the value that goroutine 0 has committed, and then `$2`. -/
example : ∃ (work : Nat → List Val) (schedule : List Nat), let s := sharing (Store.new dollar) work
    OneAtATime s schedule ∧ (∀ i, ¬ Committer.Inside ((s.run schedule).gs i)) ∧
    ((s.run schedule).gs 0).got = [lit "$1"] ∧ ((s.run schedule).gs 1).got = [lit "$1", lit "$2"] := by
  have other : ∀ (l : List Nat) (j : Nat), ¬ j = 0 → ¬ j = 1 →
      ¬ Committer.Inside (((sharing (Store.new dollar) work2).run l).gs j) := by
    intro l j h0 h1
    rw [idle_run (j := j) (by simp [sharing, work2, h0, h1]) l]
    exact fun h => h.1 rfl
  refine ⟨work2, [0, 0, 0, 0, 0, 1, 1, 1, 1, 1, 1], ?_, ?_, by kernel_rfl, by kernel_rfl⟩
  · intro k i hk j hj
    have hk' : k < 11 := by
      have := (List.getElem?_eq_some_iff.1 hk).1
      simpa using this
    have zero : ∀ k < 11, [0, 0, 0, 0, 0, 1, 1, 1, 1, 1, 1][k]? = some 0 ∨ isOutside
        (((sharing (Store.new dollar) work2).run ([0, 0, 0, 0, 0, 1, 1, 1, 1, 1, 1].take k)).gs 0) = true := by decide +kernel
    have one : ∀ k < 11, [0, 0, 0, 0, 0, 1, 1, 1, 1, 1, 1][k]? = some 1 ∨ isOutside
        (((sharing (Store.new dollar) work2).run ([0, 0, 0, 0, 0, 1, 1, 1, 1, 1, 1].take k)).gs 1) = true := by decide +kernel
    by_cases h0 : j = 0
    · subst h0
      rcases zero k hk' with h | h
      · rw [h] at hk; exact Option.some.inj hk
      · exact absurd hj (not_inside h)
    · by_cases h1 : j = 1
      · subst h1
        rcases one k hk' with h | h
        · rw [h] at hk; exact Option.some.inj hk
        · exact absurd hj (not_inside h)
      · exact absurd hj (other _ j h0 h1)
  · intro i
    by_cases h0 : i = 0
    · subst h0; exact not_inside (by decide +kernel)
    · by_cases h1 : i = 1
      · subst h1; exact not_inside (by decide +kernel)
      · exact other _ i h0 h1

end Sqlf.Props
