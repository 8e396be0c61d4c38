import Verif.Spec.Interpolate
import Verif.Proofs.Interpolate
import Verif.Props.Reader
/-!
# Interpolation
-/

namespace Sqlf.Props

open Spec

/-! ## C47 -/

/-- C47: `Interpolate` returns a text exactly if the query is a template that can be filled in, and it
returns the template with every placeholder replaced by how its argument is written, and everything else
copied. -/
theorem C47_interpolate_fills_in (L : GoLib) (layout query : Str) (args : List Val) (s : Str) :
    interpolate L layout query args = .ok s ↔
      ∃ es, readTemplate L query = some es ∧ Filled L layout args es s := by
  unfold interpolate
  cases hp : parse L query with
  | error e =>
    simp only [reduceCtorEq, false_iff, not_exists, not_and]
    intro es hr
    have := (C82_accepts_templates L query).mpr ⟨es, hr⟩
    rw [hp] at this; simp at this
  | ok es =>
    obtain ⟨es', hr, hg⟩ := C82_reads_templates L query es hp
    simp only [filled_iff, hr, Option.some.injEq, exists_eq_left']
    rw [← filled_glue, hg, filled_glue]

/-- `a=$2 '$1'` with the arguments `nil` and `it's`. -/
example (L : GoLib) (layout : Str) : interpolate L layout (lit "a=$2 '$1'") [.nil, .str 0 (lit "it's")] =
    .ok (lit "a='it''s' '$1'") := by kernel_rfl

example (L : GoLib) (layout : Str) : Filled L layout [.nil, .int 0 (-12)]
    [.plain (lit "a="), .bindVar dollar 2, .plain (lit " '$1'")] (lit "a=-12 '$1'") :=
  ⟨lit "-12 '$1'", by decide, by decide, .int 0 (-12), lit "-12", lit " '$1'", rfl,
    .inr ⟨by decide, lit "12", by decide, by decide, by decide, by decide, by decide⟩, by decide,
    [], by decide, rfl⟩

/-- **C48** (partial) Interpolate panics exactly if filling in gets to a bind variable without argument, or with a
nil pointer with a method of the type it points to.  Missing for the full property: these cases. -/
theorem C48_interpolate_panics_iff_partial (L : GoLib) (layout query : Str) (args : List Val) :
    (∃ p, interpolate L layout query args = .panic p) ↔
      ∃ es, readTemplate L query = some es ∧ GetsTo L layout args (FillingPanics args) es := by
  unfold interpolate
  cases hp : parse L query with
  | error e =>
    simp only [reduceCtorEq, exists_false, false_iff, not_exists, not_and]
    intro es hr
    have := (C82_accepts_templates L query).mpr ⟨es, hr⟩
    rw [hp] at this; simp at this
  | ok es =>
    obtain ⟨es', hr, hg⟩ := C82_reads_templates L query es hp
    have hP : ∀ t, ¬ FillingPanics args (.plain t) := by rintro t (⟨_, _, h, _⟩ | ⟨_, _, _, h, _⟩) <;> cases h
    simp only [interpolateExprs_panic_iff, hr, Option.some.injEq, exists_eq_left']
    rw [← getsTo_glue hP, hg, getsTo_glue hP]

/-- **C48** Interpolate returns an error exactly if the query is not a template, or if filling in gets to a function
or an argument that cannot be written. -/
theorem C48_interpolate_errors_iff (L : GoLib) (layout query : Str) (args : List Val) :
    (∃ e, interpolate L layout query args = .err e) ↔
      readTemplate L query = none ∨
      ∃ es, readTemplate L query = some es ∧ GetsTo L layout args (CannotFill L layout args) es := by
  unfold interpolate
  cases hp : parse L query with
  | error e =>
    simp only [Out.err.injEq, exists_eq', true_iff]
    cases hr : readTemplate L query with
    | none => exact .inl rfl
    | some es =>
      have := (C82_accepts_templates L query).mpr ⟨es, hr⟩
      rw [hp] at this; simp at this
  | ok es =>
    obtain ⟨es', hr, hg⟩ := C82_reads_templates L query es hp
    have hP : ∀ t, ¬ CannotFill L layout args (.plain t) := fun t h => h
    simp only [interpolateExprs_err_iff, hr, Option.some.injEq, exists_eq_left', reduceCtorEq, false_or]
    rw [← getsTo_glue hP, hg, getsTo_glue hP]

/-- `$1` is written, `$3` has no argument; with an argument for `$1` that cannot be written it is an error. -/
example (L : GoLib) (layout : Str) :
    GetsTo L layout [.int 0 7] (FillingPanics [.int 0 7])
      [.plain (lit "a="), .bindVar dollar 1, .plain (lit " OR b="), .bindVar dollar 3] ∧
    GetsTo L layout [.slice 0 []] (CannotFill L layout [.slice 0 []])
      [.plain (lit "a="), .bindVar dollar 1, .plain (lit " OR b="), .bindVar dollar 3] ∧
    interpolate L layout (lit "a=$1 OR b=$3") [.int 0 7] = .panic .indexOutOfRange ∧
    ∃ e, interpolate L layout (lit "a=$1 OR b=$3") [.slice 0 []] = .err e :=
  ⟨⟨[.plain (lit "a="), .bindVar dollar 1, .plain (lit " OR b=")], .bindVar dollar 3, [], lit "a=7 OR b=", rfl,
    ⟨_, rfl, by decide, .int 0 7, lit "7", lit " OR b=", rfl, .inl ⟨by decide, by decide, by decide, by decide, by decide⟩, rfl,
      [], by decide, rfl⟩, .inl ⟨dollar, 3, rfl, by decide⟩⟩,
   ⟨[.plain (lit "a=")], .bindVar dollar 1, _, lit "a=", rfl, ⟨[], by decide, rfl⟩, by decide, _, rfl, by simp [WritingPanics], by simp [Encodes]⟩,
   by kernel_rfl, .unsupportedType, by kernel_rfl⟩

/-- A nil pointer to a time after a number, and one that a Valuer returns. -/
example (L : GoLib) (layout : Str) (ty : Nat) :
    GetsTo L layout [.int 0 7, .nilRecv ty] (FillingPanics [.int 0 7, .nilRecv ty])
      [.bindVar question 1, .plain (lit " OR b="), .bindVar question 2] ∧
    interpolate L layout (lit "? OR b=?") [.int 0 7, .nilRecv ty] = .panic .nilDereference ∧
    interpolate L layout (lit "? OR b=?") [.int 0 7, .valuer 3 true (some (.nilRecv ty)) none] = .panic .nilDereference :=
  ⟨⟨[.bindVar question 1, .plain (lit " OR b=")], .bindVar question 2, [], lit "7 OR b=", rfl,
    ⟨by decide, .int 0 7, lit "7", lit " OR b=", rfl, .inl ⟨by decide, by decide, by decide, by decide, by decide⟩, rfl,
      [], by decide, rfl⟩, .inr ⟨question, 2, _, rfl, by decide, rfl, trivial⟩⟩, by kernel_rfl, by kernel_rfl⟩

/-- C47 in terms of the query text, which is read up to a NUL: it can be cut into pieces of which each is copied
unless it is a placeholder, which is replaced by how its argument is written. -/
theorem C47_everything_else_copied (L : GoLib) (layout query : Str) (args : List Val) (s : Str)
    (h : interpolate L layout query args = .ok s) :
    ∃ ps : List ((Str × Expr) × Str), source (ps.map (·.1)) = beforeNul query ∧ Segments L false (ps.map (·.1)) ∧
      s = ps.flatMap (·.2) ∧ ∀ p ∈ ps, FilledPiece L layout args p.1 p.2 := by
  have hc : interpolate L layout (beforeNul query) args = .ok s := by
    rw [← h]; unfold interpolate; rw [parse_beforeNul]
  obtain ⟨es, hr, hf⟩ := (C47_interpolate_fills_in L layout (beforeNul query) args s).mp hc
  obtain ⟨ps, h1, h2, h3⟩ := segments_of_read L _ _ _ (beforeNul query) es (nul_notMem_beforeNul query) hr
  have key : ∀ (ps : List (Str × Expr)) (a : Bool) (s : Str), Segments L a ps →
      Filled L layout args (ps.map (·.2)) s → ∃ qs : List ((Str × Expr) × Str), qs.map (·.1) = ps ∧
        s = qs.flatMap (·.2) ∧ ∀ p ∈ qs, FilledPiece L layout args p.1 p.2 := by
    intro ps
    induction ps with
    | nil => intro a s _ hf; exact ⟨[], rfl, hf, by simp⟩
    | cons p ps ih =>
      intro a s hs hf
      obtain ⟨src, e⟩ := p
      cases e with
      | plain t =>
        obtain ⟨r, rfl, hr⟩ := hf
        obtain ⟨qs, h4, h5, h6⟩ := ih _ r hs.2 hr
        have : src = t := by cases hs.1 <;> rfl
        refine ⟨((src, .plain t), t) :: qs, by simp [h4], by simp [h5], ?_⟩
        intro p hp
        rcases List.mem_cons.mp hp with rfl | hp
        · exact .inl ⟨t, rfl, this.symm⟩
        · exact h6 p hp
      | bindVar st i =>
        obtain ⟨hi, v, x, r, hv, hx, rfl, hr⟩ := hf
        obtain ⟨qs, h4, h5, h6⟩ := ih _ r hs.2 hr
        refine ⟨((src, .bindVar st i), x) :: qs, by simp [h4], by simp [h5], ?_⟩
        intro p hp
        rcases List.mem_cons.mp hp with rfl | hp
        · exact .inr ⟨st, i, v, rfl, hi, hv, hx⟩
        · exact h6 p hp
      | call _ _ => simp [Filled] at hf
      | func _ => simp [Filled] at hf
  subst h2
  obtain ⟨qs, h4, h5, h6⟩ := key ps false s h3 hf
  exact ⟨qs, by rw [h4, h1], by rw [h4]; exact h3, h5, h6⟩

/-- A query with a placeholder, quoted text and an escaped marker. -/
example (L : GoLib) (layout : Str) : beforeNul (lit "a = $1 AND b ?? '$1'") = lit "a = $1 AND b ?? '$1'" ∧
    interpolate L layout (lit "a = $1 AND b ?? '$1'") [.str 0 (lit "it's")] = .ok (lit "a = 'it''s' AND b ?? '$1'") :=
  ⟨by decide, by kernel_rfl⟩

end Sqlf.Props
