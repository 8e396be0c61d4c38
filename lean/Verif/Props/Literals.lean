import Verif.Spec.Literals
import Verif.Proofs.Literals
import Verif.Props.Interpolate
import Verif.Props.Values
/-!
# String literals in interpolated queries
-/

namespace Sqlf.Props

open Spec

/-- **C104** Texts stay inside their literals: if arguments are exchanged for others that differ in texts only,
`Interpolate` still returns a query, and the two queries say the same outside of their string literals. -/
theorem C104_texts_stay_in_literals (L : GoLib) (layout query : Str) (vs ws : List Val) (s : Str)
    (hL : PlainFormats L layout) (hvw : SameButTexts vs ws) (h : interpolate L layout query vs = .ok s) :
    ∃ s', interpolate L layout query ws = .ok s' ∧ outsideLiterals s = outsideLiterals s' := by
  obtain ⟨es, hr, hf⟩ := (C47_interpolate_fills_in ..).mp h
  obtain ⟨s', hf', ho⟩ := same_outside hL hvw _ _ _ _ _ hr (.inl rfl) hf
  exact ⟨s', (C47_interpolate_fills_in ..).mpr ⟨es, hr, hf'⟩, ho⟩

/-- Texts with quotes and markers, for the `$2` before a literal and after an identifier with a `'`. -/
example (L : GoLib) (hL : PlainFormats L rfc3339) :
    SameButTexts [.int 0 7, .str 0 (lit "x")] [.int 0 7, .stringer 1 false (lit "' OR ? = '#a") none] ∧
    (interpolate L rfc3339 (lit "a = $1 AND `it's` = $2'$1'") [.int 0 7, .str 0 (lit "x")] =
      .ok (lit "a = 7 AND `it's` = 'x''$1'")) ∧
    (interpolate L rfc3339 (lit "a = $1 AND `it's` = $2'$1'")
      [.int 0 7, .stringer 1 false (lit "' OR ? = '#a") none] =
      .ok (lit "a = 7 AND `it's` = ''' OR ? = ''#a''$1'")) ∧
    outsideLiterals (lit "a = 7 AND `it's` = ''' OR ? = ''#a''$1'") = lit "a = 7 AND `it's` = ''" := by
  refine ⟨⟨rfl, ?_⟩, by kernel_rfl, by kernel_rfl, by decide +kernel⟩
  intro i v w hv hw
  match i with
  | 0 => simp at hv hw; subst hv hw; exact .inl rfl
  | 1 => simp at hv hw; subst hv hw; exact .inr ⟨by simp [textOf], by simp [textOf]⟩
  | i + 2 => simp at hv

/-- The default format of times, and a library that writes times in it as the format itself. -/
example : PlainFormats ⟨fun _ => false, fun _ => none, fun _ => 0, fun _ s => s, fun _ => lit "1.5"⟩ rfc3339 :=
  ⟨fun _ => by show 0x27 ∉ rfc3339; decide +kernel, fun _ => by
    show ∀ b ∈ lit "1.5", plainByte b = true; decide +kernel⟩

/-- The condition on formats is needed: times are not escaped, a `'` in a format given by the user ends the literal. -/
example : ∃ L : GoLib, ∃ layout,
    interpolate L layout (lit "?, ?") [.time 1 false, .str 0 (lit "x")] = .ok (lit "'h'm', 'x'") ∧
    interpolate L layout (lit "?, ?") [.time 1 false, .str 0 (lit "y")] = .ok (lit "'h'm', 'y'") ∧
    outsideLiterals (lit "'h'm', 'x'") = lit "''m''x'" ∧ outsideLiterals (lit "'h'm', 'y'") = lit "''m''y'" :=
  ⟨⟨fun _ => false, fun _ => none, fun _ => 0, fun _ s => s, fun _ => []⟩, lit "h'm",
    by decide +kernel, by decide +kernel, by decide +kernel, by decide +kernel⟩

/-- **C104**, from the builder to the interpolated query: values in the query builders and fragments are exchanged for
others that differ in texts only.  The text built is the same, and interpolated it still says the same outside of
its string literals. -/
theorem C104_built_and_interpolated (L : GoLib) (R : Val → Val → Prop)
    (hT : ∀ v w, R v w → v = w ∨ (textOf v ≠ none ∧ textOf w ≠ none)) (style : Style) (hR : style = dollar → Compat R)
    (b b' : Builder) (heap heap' : List QB) (hb : SameQ R b b') (hh : Pointwise (ButForValues R) heap heap')
    (hq : ∀ qb ∈ heap, qb.debug = false) (query : Str) (args : List Val)
    (h : Returns L b style heap (.ok (query, args))) (layout s : Str) (hL : PlainFormats L layout)
    (hi : interpolate L layout query args = .ok s) :
    ∃ args' s', Returns L b' style heap' (.ok (query, args')) ∧ interpolate L layout query args' = .ok s' ∧
      outsideLiterals s = outsideLiterals s' := by
  obtain ⟨o', ho', hl⟩ := C97_values_influence_nothing L R style hR b b' hb heap heap' hh hq _ h
  cases o' with
  | ok r =>
    obtain ⟨q', as'⟩ := r
    obtain ⟨rfl, hp⟩ := hl
    have hs : SameButTexts args as' := by
      refine ⟨hp.length, fun i v w hv hw => ?_⟩
      clear hi h ho'
      induction hp generalizing i with
      | nil => simp at hv
      | cons hr _ ih =>
        cases i with
        | zero => simp at hv hw; subst hv hw; exact hT _ _ hr
        | succ i => exact ih i (by simpa using hv) (by simpa using hw)
    obtain ⟨s', hi', hs'⟩ := C104_texts_stay_in_literals L layout _ args as' s hL hs hi
    exact ⟨as', s', ho', hi', hs'⟩
  | err e => exact hl.elim
  | panic p => exact hl.elim
  | oof => exact hl.elim

private def textCalls (t : Str) : List Call :=
  [.select [tableColumn (lit "t") (lit "id")], .from_ ⟨lit "t", []⟩,
    .where_ (some (.Fa (lit "a = ? AND b = ?") [.str 0 t, .int 0 1]))]

private def withText (t : Str) : QB := match runCalls QB.new (textCalls t) with | .ok b => b | _ => QB.new

/-- A query builder with a text in its condition, and the same with any other text, such as one that tries to get out
of its literal. -/
example (L : GoLib) (t : Str) :
    SameQ (fun v w => v = w ∨ (textOf v ≠ none ∧ textOf w ≠ none)) (.qb 0) (.qb 0) ∧
    Pointwise (ButForValues fun v w => v = w ∨ (textOf v ≠ none ∧ textOf w ≠ none))
      [withText (lit "x")] [withText t] ∧
    (∀ qb ∈ [withText (lit "x")], qb.debug = false) ∧
    Returns L (.qb 0) question [withText (lit "x")]
      (.ok (lit "SELECT t.id FROM t WHERE a = ? AND b = ?", [.str 0 (lit "x"), .int 0 1])) ∧
    interpolate L rfc3339 (lit "SELECT t.id FROM t WHERE a = ? AND b = ?") [.str 0 (lit "x"), .int 0 1] =
      .ok (lit "SELECT t.id FROM t WHERE a = 'x' AND b = 1") ∧
    interpolate L rfc3339 (lit "SELECT t.id FROM t WHERE a = ? AND b = ?") [.str 0 (lit "' OR ''='"), .int 0 1] =
      .ok (lit "SELECT t.id FROM t WHERE a = ''' OR ''''=''' AND b = 1") ∧
    outsideLiterals (lit "SELECT t.id FROM t WHERE a = ''' OR ''''=''' AND b = 1") =
      lit "SELECT t.id FROM t WHERE a = '' AND b = 1" := by
  refine ⟨by simp [SameQ], .cons ⟨textCalls (lit "x"), textCalls t, rfl, rfl, ?_⟩ .nil, ?_,
    returns_of_buildQuery (n := 100) (by kernel_rfl) (by simp), by kernel_rfl, by kernel_rfl, by decide +kernel⟩
  · refine .cons ?_ (.cons rfl (.cons ?_ .nil))
    · simp [SameCall, SameQL, SameQ, SameQF, tableColumn, Fragment.F]; exact .nil
    · simp only [SameCall, SameOpt, SameQF, SameQL, Fragment.Fa, true_and, and_true]
      exact .cons (.inr ⟨by simp [textOf], by simp [textOf]⟩) (.cons (.inl rfl) .nil)
  · intro qb hqb
    cases List.mem_singleton.1 hqb
    decide +kernel

/-- **C105** Nothing is left to fill in: a query returned by `Interpolate` is read as plain text.  Interpolating it
again, with any arguments and any format, returns it up to its first NUL, that is all of it unless an argument
has a NUL. -/
theorem C105_nothing_left_to_fill_in (L : GoLib) (layout query : Str) (args : List Val) (s : Str)
    (hL : PlainFormats L layout) (h : interpolate L layout query args = .ok s) (layout' : Str) (args' : List Val) :
    interpolate L layout' s args' = .ok (beforeNul s) := by
  obtain ⟨es, hr, hf⟩ := (C47_interpolate_fills_in ..).mp h
  obtain ⟨es', hr', hf'⟩ := read_accepted (L := L) (layout := layout') (vs := args') (s.length + 1) 0 false s
    (by omega) (scn_filled hL _ _ _ _ _ hr (.inl rfl) hf)
  exact (C47_interpolate_fills_in ..).mpr ⟨es', hr', hf'⟩

example (L : GoLib) : interpolate L rfc3339 (lit "$2 $$ '?' $1") [.str 0 (lit "it's $1 #join("), .int 0 7] =
      .ok (lit "7 $$ '?' 'it''s $1 #join('") ∧
    interpolate L rfc3339 (lit "7 $$ '?' 'it''s $1 #join('") [] = .ok (lit "7 $$ '?' 'it''s $1 #join('") ∧
    beforeNul (lit "7 $$ '?' 'it''s $1 #join('") = lit "7 $$ '?' 'it''s $1 #join('" :=
  ⟨by kernel_rfl, by kernel_rfl, by decide +kernel⟩

end Sqlf.Props
