import Verif.Spec.JoinCache
import Verif.Props.Pure
import Verif.Props.Again
/-!
# C113: when `#join` tests a function
-/

namespace Sqlf.Props

open Spec

/-- A function that was tested gives the same answer from then on, and is not called again. -/
theorem runJoins_tested (rec : Rec) (f : FuncInfo) (v : Bool) (steps : List JoinStep) :
    ∀ s, ∀ a ∈ runJoins rec f (some v) s steps, a.answer = .ok v ∧ a.after = a.before ∧ a.tests = 0 := by
  induction steps with
  | nil => intro s a h; cases h
  | cons st steps ih =>
    intro s a h
    cases st with
    | other g => exact ih _ _ h
    | ask =>
      rcases List.mem_cons.1 h with h | h
      · subst h; exact ⟨rfl, rfl, rfl⟩
      · exact ih _ _ h

theorem testsOf_zero {as : List JoinAsk} (h : ∀ a ∈ as, a.tests = 0) : testsOf as = 0 := by
  induction as with
  | nil => rfl
  | cons a as ih =>
    simp only [testsOf, h a (List.mem_cons_self ..), ih (fun b hb => h b (List.mem_cons_of_mem _ hb))]

/-- **C113** Whatever a program does between two uses of `#join` with one context: after the first use that got an
answer about a function, all later ones get the same answer, and the function is not called for them. -/
theorem C113_answer_is_kept (rec : Rec) (f : FuncInfo) (s : St) (steps : List JoinStep) (v : Bool)
    (pre post : List JoinAsk) (a b : JoinAsk) (h : runJoins rec f none s steps = pre ++ a :: post) (ha : a.answer = .ok v)
    (hb : b ∈ post) : b.answer = .ok v ∧ b.after = b.before ∧ b.tests = 0 := by
  suffices H : ∀ steps c s pre, runJoins rec f c s steps = pre ++ a :: post → b.answer = .ok v ∧ b.after = b.before ∧ b.tests = 0 from
    H steps none s pre h
  clear h s steps pre
  intro steps
  induction steps with
  | nil => intro c s pre h; simp [runJoins] at h
  | cons st steps ih =>
    intro c s pre h
    cases st with
    | other g => exact ih c _ pre h
    | ask =>
      cases pre with
      | cons p pre => exact ih _ _ pre (List.cons.inj h).2
      | nil =>
        obtain ⟨h1, h2⟩ := List.cons.inj h
        subst h1
        have hc : (askJoin rec f c s).2.1 = some v := by
          cases c with
          | some w => simp only [askJoin] at ha ⊢; cases ha; rfl
          | none =>
            simp only [askJoin] at ha ⊢
            rcases hj : joinCompatible rec f s with ⟨o, s'⟩
            rw [hj] at ha
            cases o <;> cases ha
            rfl
        rw [hc] at h2
        exact runJoins_tested rec f v steps _ b (h2 ▸ hb)

/-- **C113** The function is called for the test once, in the first use: also when the program asks again and again,
and whatever it does in between. -/
theorem C113_tested_once (rec : Rec) (f : FuncInfo) (s : St) (steps : List JoinStep)
    (h : ∀ a ∈ runJoins rec f none s steps, ∃ v, a.answer = .ok v) : testsOf (runJoins rec f none s steps) ≤ 1 := by
  induction steps generalizing s with
  | nil => exact Nat.zero_le 1
  | cons st steps ih =>
    cases st with
    | other g => exact ih _ h
    | ask =>
      obtain ⟨v, hv⟩ := h _ (List.mem_cons_self ..)
      simp only [askJoin] at hv
      simp only [runJoins, askJoin, testsOf]
      rcases hj : joinCompatible rec f s with ⟨o, s'⟩
      rw [hj] at hv
      cases o <;> cases hv
      rw [testsOf_zero (fun a ha => (runJoins_tested rec f v steps _ a ha).2.2)]
      exact Nat.le_refl 1

/-- **C113**, the part that holds: for a function that refers to no query builder, every answer is the one that a test
at that time gives, so `#join` always judges the function as it is. -/
theorem C113_judged_as_it_is_partial (L : GoLib) (n : Nat) (f : FuncInfo) (hf : RefsInB (fun _ => False) f.body) (s : St)
    (steps : List JoinStep) : ∀ a ∈ runJoins (run L n) f none s steps, a.UpToDate (run L n) f := by
  suffices H : ∀ (c : JoinCell) s, (∀ v, c = some v → ∀ t, joinCompatible (run L n) f t = (.ok v, t)) →
      ∀ a ∈ runJoins (run L n) f c s steps, a.UpToDate (run L n) f from H none s (fun v h => by cases h)
  clear s
  induction steps with
  | nil => intro c s _ a h; cases h
  | cons st steps ih =>
    intro c s hc a h
    cases st with
    | other g => exact ih c _ hc a h
    | ask =>
      have hn : ∀ v, (askJoin (run L n) f c s).2.1 = some v → ∀ t, joinCompatible (run L n) f t = (.ok v, t) := by
        intro v hv t
        cases c with
        | some w => simp only [askJoin] at hv; cases hv; exact hc v rfl t
        | none =>
          simp only [askJoin] at hv
          rw [C94_trial_call L f hf n s t]
          rcases hj : joinCompatible (run L n) f s with ⟨o, s'⟩
          rw [hj] at hv
          cases o <;> cases hv
          rfl
      rcases List.mem_cons.1 h with h | h
      · subst h
        simp only [JoinAsk.UpToDate]
        cases c with
        | some w => exact hc w rfl s
        | none =>
          simp only [askJoin]
          rcases hj : joinCompatible (run L n) f s with ⟨o, s'⟩
          cases o <;> rfl
      · exact ih _ _ hn a h

/-- A user function `func(ctx *Context, i int) (string, error)`: the query of a query builder for the index 1, and
an invalid index for all others. -/
def queryFunc (L : GoLib) : FuncInfo :=
  { name := lit "q", ins := [.context, .num .int 0], variadic := false, outs := [.string 0, .error],
    body := .custom fun vs => .query question (.qb 0) fun
      | .ok r => if (vs.getD 1 .context).toInt L = 1 then .ret r.1 else .fail (.invalidIndex ((vs.getD 1 .context).toInt L))
      | .error e => .fail e }

/-- A program asks about `queryFunc` when the query builder is new, and again when the query is complete. -/
def earlyAndLate : List JoinStep := [.ask, .other fun s => { s with heap := [firstQB] }, .ask]

/-- **C113**, where it fails: a function that builds a query builder was asked for before the query was complete, and
was refused; when the query is complete it is still refused, although a test would now accept it. -/
theorem C113_judged_as_it_is_counterexample (L : GoLib) : ∃ a ∈ runJoins (run L 200) (queryFunc L) none
    (St.init question [QB.new]) earlyAndLate,
    a.answer = .ok false ∧ (joinCompatible (run L 200) (queryFunc L) a.before).1 = .ok true := by
  refine ⟨(runJoins (run L 200) (queryFunc L) none (St.init question [QB.new]) earlyAndLate)[1]'(by simp [runJoins, earlyAndLate]),
    List.getElem_mem _, ?_, ?_⟩ <;> kernel_rfl

/-- Asked when the query is complete, the function is accepted, and stays so. -/
example (L : GoLib) : (runJoins (run L 200) (queryFunc L) none (St.init question [firstQB])
    [.ask, .other fun s => { s with heap := [QB.new] }, .ask]).map (fun a => (a.answer, a.tests)) = [(.ok true, 1), (.ok true, 0)] := by
  kernel_rfl

/-- A function that refers to no query builder, asked three times. -/
example (L : GoLib) : ∃ f, (idCtx L [.int 64 1]).fn (lit "_id") = some f ∧ RefsInB (fun _ => False) f.body ∧
    (runJoins (run L 200) f none (St.init question [QB.new]) [.ask, .other fun s => { s with heap := [] }, .ask, .ask]).map
      (fun a => (a.answer, a.tests)) = [(.ok true, 1), (.ok true, 0), (.ok true, 0)] := by
  obtain ⟨f, h, hf, hj⟩ := sharedFunc_join L
  refine ⟨f, h, hf, ?_⟩
  simp [runJoins, askJoin, hj]

end Sqlf.Props
