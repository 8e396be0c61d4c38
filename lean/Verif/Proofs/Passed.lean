import Verif.Spec.Passed
import Verif.Proofs.Ev
/-!
# Lemmas about the arguments of calls
-/

namespace Sqlf

open Spec

theorem evalArg_of_received {t : GoType} {a : CallArg} {v : ArgVal} (h : received t a = some v) : evalArg t a = .ok v := by
  cases t <;> cases a <;> simp_all [received, evalArg]

theorem evalArgs_of_received (ts : List GoType) (as : List CallArg) (vs : List ArgVal) (hl : vs.length = as.length)
    (h : ∀ (k : Nat) a, as[k]? = some a → ∃ t v, ts[k]? = some t ∧ received t a = some v ∧ vs[k]? = some v) :
    evalArgs ts as = .ok vs := by
  induction as generalizing ts vs with
  | nil =>
    have : vs = [] := List.length_eq_zero_iff.mp (by simpa using hl)
    subst this
    cases ts <;> rfl
  | cons a as ih =>
    obtain ⟨t, v, ht, hv, hvs⟩ := h 0 a rfl
    cases ts with
    | nil => simp at ht
    | cons t' ts =>
      cases vs with
      | nil => simp at hvs
      | cons v' vs =>
        simp only [List.getElem?_cons_zero, Option.some.injEq] at ht hvs
        subst ht; subst hvs
        have := ih ts vs (by simpa using hl) fun k a hk => by
          simpa using h (k + 1) a (by simpa using hk)
        simp [evalArgs, evalArg_of_received hv, this]

theorem callAssignable_true (ts : List GoType) (vs : List ArgVal)
    (h : ∀ (k : Nat) t, k < vs.length → ts[k]? = some t → definedType t = false) : callAssignable ts vs = true := by
  induction ts generalizing vs with
  | nil => cases vs <;> rfl
  | cons t ts ih =>
    cases vs with
    | nil => rfl
    | cons v vs =>
      have h0 := h 0 t (by simp) rfl
      have := ih vs fun k t hk ht => h (k + 1) t (by simpa using hk) (by simpa using ht)
      cases t <;> cases v <;> simp_all [callAssignable, definedType]

theorem callAssignable_false (ts : List GoType) (vs : List ArgVal) (k : Nat) (t : GoType) (a : CallArg) (v : ArgVal)
    (ht : ts[k]? = some t) (hd : definedType t = true) (hv : received t a = some v) (hvs : vs[k]? = some v) :
    callAssignable ts vs = false := by
  induction ts generalizing vs k with
  | nil => simp at ht
  | cons t' ts ih =>
    cases vs with
    | nil => simp at hvs
    | cons v' vs =>
      cases k with
      | zero =>
        simp only [List.getElem?_cons_zero, Option.some.injEq] at ht hvs
        subst ht; subst hvs
        cases t' <;> cases a <;> simp_all [received, definedType]
        all_goals (subst hv; simp [callAssignable]; omega)
      | succ k =>
        have := ih vs k (by simpa using ht) (by simpa using hvs)
        simp [callAssignable, this]

/-- A clause is built as the clause with its texts put together. -/
theorem buildClause_glue (L : GoLib) (rec : Rec) (m : Nat) (ctx : Ctx) (es : List Expr) :
    buildClause L rec m ctx (glue es) = buildClause L rec m ctx es := by
  induction es with
  | nil => rfl
  | cons e es ih =>
    have other : buildClause L rec m ctx (e :: glue es) = buildClause L rec m ctx (e :: es) := by
      simp only [buildClause, ih]
    cases e with
    | plain t =>
      simp only [glue]
      split
      · rename_i h
        subst h
        rw [ih]
        funext s
        simp only [buildClause, evalExpr, M.bind, M.pure, List.nil_append]
        rcases buildClause L rec m ctx es s with ⟨o, s'⟩
        cases o <;> rfl
      · split
        · rename_i u r hg
          rw [← other, hg]
          funext s
          simp only [buildClause, evalExpr, M.bind, M.pure]
          rcases buildClause L rec m ctx r s with ⟨o, s'⟩
          cases o <;> simp
        · exact other
    | bindVar t i => exact other
    | call n as => exact other
    | func n => exact other

end Sqlf
