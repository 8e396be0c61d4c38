import Verif.Proofs.Meaning
import Verif.Proofs.OpenArgs
import Verif.Proofs.CheckWF
import Verif.Model.Funcs
import Verif.KernelRfl
/-!
# C02–C12: reading templates
-/

namespace Sqlf.Props

open Spec

/-! ## Helper -/

private theorem parse_at (L : GoLib) (pre post : List Item) (i : Item) (e : Expr)
    (hi : ∀ k q is, meaning k q (i :: is) = (meaning k q is).map (e :: ·))
    (hw : WF (pre ++ i :: post)) :
    match meaning 0 false pre, meaning (bindCount pre) (pre.any isQmark) post with
    | some es₁, some es₂ => ∃ es, parse L (render (pre ++ i :: post)) = .ok es ∧
        glue es = glue (es₁ ++ e :: es₂)
    | _, _ => parse L (render (pre ++ i :: post)) = .error .mixedBindvarStyles := by
  have hm := meaning_append pre (i :: post) 0 false
  rw [hi] at hm
  simp only [Nat.zero_add, Bool.false_or] at hm
  cases h1 : meaning 0 false pre with
  | none => rw [h1] at hm; exact parse_render_none L hw hm
  | some es₁ =>
    rw [h1] at hm
    cases h2 : meaning (bindCount pre) (pre.any isQmark) post with
    | none => rw [h2] at hm; exact parse_render_none L hw hm
    | some es₂ => rw [h2] at hm; exact parse_render_some L hw hm

/-! ## C02 -/

/-- C02: for given surroundings `pre`, `post`, either every quoted content leads to the same
syntax error (the surroundings mix bind variable styles), or the clause is, for every quoted
content, the same expressions `es₁`, `es₂` around the quoted text copied verbatim. -/
theorem C02_quoted_regions_opaque (L : GoLib) (pre post : List Item) (c : UInt8) :
    (∀ s, WF (pre ++ .quoted c s :: post) →
      parse L (render (pre ++ .quoted c s :: post)) = .error .mixedBindvarStyles) ∨
    ∃ es₁ es₂, ∀ s, WF (pre ++ .quoted c s :: post) →
      ∃ es, parse L (render (pre ++ .quoted c s :: post)) = .ok es ∧
        glue es = glue (es₁ ++ .plain ([c] ++ s ++ [c]) :: es₂) := by
  cases h1 : meaning 0 false pre with
  | none =>
    left; intro s hw
    have := parse_at L pre post (.quoted c s) (.plain ([c] ++ s ++ [c])) (fun _ _ _ => rfl) hw
    rw [h1] at this; exact this
  | some es₁ =>
    cases h2 : meaning (bindCount pre) (pre.any isQmark) post with
    | none =>
      left; intro s hw
      have := parse_at L pre post (.quoted c s) (.plain ([c] ++ s ++ [c])) (fun _ _ _ => rfl) hw
      rw [h1, h2] at this; exact this
    | some es₂ =>
      right; refine ⟨es₁, es₂, fun s hw => ?_⟩
      have := parse_at L pre post (.quoted c s) (.plain ([c] ++ s ++ [c])) (fun _ _ _ => rfl) hw
      rw [h1, h2] at this; exact this

/-- Such templates exist: `a ? 'it''s ? $1 #f1 "' #f1`. -/
example : WF ([.text (lit "a "), .qmark, .text (lit " ")] ++
    .quoted 0x27 (escapeQuotes (lit "it's ? $1 #f1 \"")) :: [.text (lit " "), .callN (lit "f") 1]) := by
  exact wf_check (by decide +kernel)

/-! ## C03 -/

/-- C03: a doubled marker is two characters of text, and the rest of the template is read as
without it. -/
theorem C03_doubled_markers_are_text (L : GoLib) (pre post : List Item) (b : UInt8)
    (hw : WF (pre ++ .esc b :: post)) :
    parse L (render (pre ++ .esc b :: post)) = .error .mixedBindvarStyles ∨
    ∃ es es₁ es₂, parse L (render (pre ++ .esc b :: post)) = .ok es ∧
      glue es = glue (es₁ ++ .plain [b, b] :: es₂) ∧
      meaning 0 false (pre ++ post) = some (es₁ ++ es₂) ∧
      refs es = refs (es₁ ++ es₂) := by
  have h := parse_at L pre post (.esc b) (.plain [b, b]) (fun _ _ _ => rfl) hw
  cases h1 : meaning 0 false pre with
  | none => rw [h1] at h; exact Or.inl h
  | some es₁ =>
    cases h2 : meaning (bindCount pre) (pre.any isQmark) post with
    | none => rw [h1, h2] at h; exact Or.inl h
    | some es₂ =>
      rw [h1, h2] at h
      obtain ⟨es, h3, h4⟩ := h
      refine Or.inr ⟨es, es₁, es₂, h3, h4, ?_, ?_⟩
      · rw [meaning_append, h1]
        simp [h2]
      · rw [← refs_glue, h4, refs_glue]
        have : ∀ a : List Expr, refs (a ++ .plain [b, b] :: es₂) = refs (a ++ es₂) := by
          intro a
          induction a with
          | nil => rfl
          | cons x a ih => cases x <;> simp [refs, ih]
        exact this es₁

example : WF ([.text (lit "a"), .qmark, .text (lit " ")] ++ .esc 0x3F :: [.qmark]) ∧
    render ([.text (lit "a"), .qmark, .text (lit " ")] ++ .esc 0x3F :: [.qmark]) = lit "a? ???" := by
  exact ⟨wf_check (by decide +kernel), by decide⟩

/-! ## C04 -/

/-- C04: a template is read as the expressions it was written with, up to the division of
plain text into pieces; a `$n` after a `?` is a syntax error. -/
theorem C04_templates_read_back (L : GoLib) (is : List Item) (hw : WF is) :
    match meaning 0 false is with
    | none => parse L (render is) = .error .mixedBindvarStyles
    | some es => ∃ es', parse L (render is) = .ok es' ∧ glue es' = glue es :=
  parse_render L is hw

/-- The items of `SELECT #join('#f', ' AND ')` as used by the query builder, and a longer list. -/
example : WF [.text (lit "WHERE "), .call (lit "join") [(0, .str (lit "#f")), (1, .str (lit " AND "))],
    .text (lit " and x="), .dollarN 12] ∧
    render [.text (lit "WHERE "), .call (lit "join") [(0, .str (lit "#f")), (1, .str (lit " AND "))],
    .text (lit " and x="), .dollarN 12] = lit "WHERE #join('#f', ' AND ') and x=$12" := by
  exact ⟨wf_check (by decide +kernel), by decide⟩

/-! ## C05 -/

/-- C05: the scanner's state machine stops after at most `3 * length + 6` calls of a scan function
and the parser returns a clause or one of its own errors, on every input. -/
theorem C05_parsing_terminates (L : GoLib) (input : Str) :
    (∃ ts, scanRun L (3 * (input.length + 1) + 3) .plain (Lex.init input) = some ts) ∧
    ((∃ es, parse L input = .ok es) ∨ ∃ e, e ≠ .outOfFuel ∧ parse L input = .error e) := by
  refine ⟨Option.isSome_iff_exists.mp (scanAll_isSome L input), ?_⟩
  have h := parse_ne_outOfFuel L input
  cases hp : parse L input with
  | ok es => exact Or.inl ⟨es, rfl⟩
  | error e => exact Or.inr ⟨e, fun he => h (by rw [hp, he]), rfl⟩

example (L : GoLib) : parse L (lit "#f('abc") = .error (.badArgument (lit "'abc")) := by kernel_rfl

/-! ## C06 -/

/-- C06 is false: everything after a NUL byte is dropped without an error. -/
theorem C06_nul_drops_rest_counterexample (L : GoLib) :
    parse L (lit "DELETE FROM t" ++ 0 :: lit " WHERE id=$1") = .ok [.plain (lit "DELETE FROM t")] := by
  kernel_rfl

/-- C06 for templates made of well-formed items (which contain no NUL): the text of the clause
is the text of the template. Missing: arbitrary NUL-free templates. -/
theorem C06_text_kept_partial (L : GoLib) (is : List Item) (hw : WF is) (es : List Expr)
    (h : parse L (render is) = .ok es) : plainText es = itemText is := by
  cases hm : meaning 0 false is with
  | none => rw [parse_render_none L hw hm] at h; simp at h
  | some es' =>
    obtain ⟨es'', h1, h2⟩ := parse_render_some L hw hm
    rw [h] at h1
    simp at h1; subst h1
    rw [← plainText_glue, h2, plainText_glue, plainText_meaning _ _ _ _ hm]

example (L : GoLib) : ∃ es, parse L (lit "a$1b'c'") = .ok es ∧ plainText es = lit "ab'c'" :=
  ⟨[.plain (lit "a"), .bindVar dollar 1, .plain (lit "b'c'")], by kernel_rfl, by kernel_rfl⟩

/-! ## C07 -/

/-- C07: in a template without `$n` the `?`s refer to the arguments 1, 2, 3, … -/
theorem C07_question_marks_count_up (L : GoLib) (is : List Item) (hw : WF is)
    (hd : is.any isDollarN = false) :
    ∃ es, parse L (render is) = .ok es ∧
      refs es = (List.range (is.filter isQmark).length).map fun j => ((j + 1 : Nat) : Int) := by
  obtain ⟨es', hm⟩ := meaning_some_of_no_dollar is 0 false hd
  obtain ⟨es, h1, h2⟩ := parse_render_some L hw hm
  refine ⟨es, h1, ?_⟩
  rw [← refs_glue, h2, refs_glue, refs_meaning_question _ _ _ hd _ hm]
  apply List.map_congr_left
  intro j _
  show ((_ : Nat) : Int) = ((_ : Nat) : Int)
  congr 1
  omega

/-- C07: in a template without `?` every `$n` refers to argument `n`, in order of occurrence. -/
theorem C07_dollar_numbers_kept (L : GoLib) (is : List Item) (hw : WF is)
    (hd : is.any isQmark = false) :
    ∃ es, parse L (render is) = .ok es ∧ refs es = dollarNumbers is := by
  obtain ⟨es', hm⟩ := meaning_some_of_no_mix is 0 hd
  obtain ⟨es, h1, h2⟩ := parse_render_some L hw hm
  exact ⟨es, h1, by rw [← refs_glue, h2, refs_glue, refs_meaning_dollar _ _ _ hd _ hm]⟩

example : WF [.text (lit "a="), .dollarN 3, .text (lit " or b="), .dollarN 1] ∧
    dollarNumbers [.text (lit "a="), .dollarN 3, .text (lit " or b="), .dollarN 1] = [3, 1] := by
  exact ⟨wf_check (by decide +kernel), rfl⟩

/-! ## C08 -/

/-- C08 is false: a `?` after a `$n` is accepted (and refers to the second argument here). -/
theorem C08_question_after_dollar_accepted_counterexample (L : GoLib) :
    parse L (lit "$1,?") = .ok [.bindVar dollar 1, .plain (lit ","), .bindVar question 2] := by
  kernel_rfl

/-- C08 for a `$n` anywhere after a `?`.  Missing: a `?` after a `$n`. -/
theorem C08_dollar_after_question_rejected_partial (L : GoLib) (a b c : List Item) (n : Nat)
    (hw : WF (a ++ .qmark :: (b ++ .dollarN n :: c))) :
    parse L (render (a ++ .qmark :: (b ++ .dollarN n :: c))) = .error .mixedBindvarStyles := by
  apply parse_render_none L hw
  rw [meaning_append]
  simp only [meaning]
  rw [meaning_none_of_mix]
  cases meaning 0 false a <;> rfl

example : WF ([.text (lit "a")] ++ .qmark :: ([.text (lit ",")] ++ .dollarN 1 :: [])) := by
  exact wf_check (by decide +kernel)

private theorem meaning_mixed (is : List Item) : ∀ k, (∀ q, meaning k q is = none →
    (q = true ∧ ∃ b n c, is = b ++ .dollarN n :: c) ∨ ∃ a b n c, is = a ++ .qmark :: (b ++ .dollarN n :: c)) := by
  induction is with
  | nil => intro k q h; simp [meaning] at h
  | cons i is ih =>
    intro k q h
    have same : ∀ k', meaning k' q is = none →
        (q = true ∧ ∃ b n c, i :: is = b ++ .dollarN n :: c) ∨
          ∃ a b n c, i :: is = a ++ .qmark :: (b ++ .dollarN n :: c) := by
      intro k' h
      rcases ih k' q h with ⟨hq, b, n, c, rfl⟩ | ⟨a, b, n, c, rfl⟩
      · exact .inl ⟨hq, i :: b, n, c, rfl⟩
      · exact .inr ⟨i :: a, b, n, c, rfl⟩
    cases i with
    | dollarN n =>
      simp only [meaning] at h
      split at h
      next hq => exact .inl ⟨hq, [], n, is, rfl⟩
      next hq => exact same _ (Option.map_eq_none_iff.1 h)
    | qmark =>
      simp only [meaning] at h
      rcases ih (k + 1) true (Option.map_eq_none_iff.1 h) with ⟨-, b, n, c, rfl⟩ | ⟨a, b, n, c, rfl⟩
      · exact .inr ⟨[], b, n, c, rfl⟩
      · exact .inr ⟨.qmark :: a, b, n, c, rfl⟩
    | _ => simp only [meaning] at h; exact same _ (Option.map_eq_none_iff.1 h)

/-- C08, exactly: a template is accepted if and only if no `$n` follows a `?`. -/
theorem C08_accepted_iff (L : GoLib) (is : List Item) (hw : WF is) :
    (∃ es, parse L (render is) = .ok es) ↔ ¬ ∃ a b n c, is = a ++ .qmark :: (b ++ .dollarN n :: c) := by
  constructor
  · rintro ⟨es, h⟩ ⟨a, b, n, c, rfl⟩
    rw [C08_dollar_after_question_rejected_partial L a b c n hw] at h
    cases h
  · intro hn
    have h := C04_templates_read_back L is hw
    cases hm : meaning 0 false is with
    | none =>
      rcases meaning_mixed is 0 false hm with ⟨h, -⟩ | h
      · cases h
      · exact absurd h hn
    | some es =>
      rw [hm] at h
      obtain ⟨es', h1, -⟩ := h
      exact ⟨es', h1⟩

example : WF [.dollarN 1, .text (lit ","), .qmark] ∧
    ¬ ∃ a b n c, [Item.dollarN 1, .text (lit ","), .qmark] = a ++ .qmark :: (b ++ .dollarN n :: c) := by
  refine ⟨wf_check (by decide +kernel), ?_⟩
  rintro ⟨a, b, n, c, h⟩
  match a with
  | [] => cases h
  | [_] => cases h
  | [_, _] => simp at h
  | _ :: _ :: _ :: _ => simp at h

/-! ## C09 -/

/-- C09: `#nameN` and `#name(N)` (with any number of blanks before `N`) read the same, in every
context. -/
theorem C09_short_call_is_call (L : GoLib) (pre post : List Item) (name : Str) (n k : Nat)
    (h₁ : WF (pre ++ .callN name n :: post)) (h₂ : WF (pre ++ .call name [(k, .num n)] :: post)) :
    SameClause (parse L (render (pre ++ .callN name n :: post)))
      (parse L (render (pre ++ .call name [(k, .num n)] :: post))) := by
  have h1 := parse_at L pre post _ (.call name [.num (.nat n)]) (fun _ _ _ => rfl) h₁
  have h2 := parse_at L pre post _ (.call name [.num (.nat n)]) (fun _ _ _ => rfl) h₂
  cases h3 : meaning 0 false pre with
  | none => rw [h3] at h1 h2; rw [h1, h2]; rfl
  | some es₁ =>
    cases h4 : meaning (bindCount pre) (pre.any isQmark) post with
    | none => rw [h3, h4] at h1 h2; rw [h1, h2]; rfl
    | some es₂ =>
      rw [h3, h4] at h1 h2
      obtain ⟨e1, h5, h6⟩ := h1
      obtain ⟨e2, h7, h8⟩ := h2
      rw [h5, h7]
      exact h6.trans h8.symm

/-- The call itself carries the number. -/
theorem C09_call_value (L : GoLib) (name : Str) (n : Nat) (hn : isName name) (h : n < 10 ^ 15) :
    ∃ es, parse L (lit "#" ++ name ++ natDigits n) = .ok es ∧
      glue es = [.call name [.num (.nat n)]] := by
  have := parse_render_some L (is := [.callN name n])
    ⟨⟨hn, h⟩, by simp, by simp [Follows, render], trivial, trivial⟩ rfl
  simpa [render, renderItem, glue] using this

example (L : GoLib) : parse L (lit "#f12") = parse L (lit "#f(  12)") := by kernel_rfl

/-! ## C10 -/

/-- C10: a string literal argument denotes exactly the string it was written for. -/
theorem C10_string_arguments_exact (L : GoLib) (name s : Str) (k : Nat) (hn : isName name)
    (hs : 0 ∉ s) :
    ∃ es, parse L (lit "#" ++ name ++ lit "(" ++ List.replicate k 0x20 ++
        ([0x27] ++ escapeQuotes s ++ [0x27]) ++ lit ")") = .ok es ∧
      glue es = [.call name [.str s]] := by
  have hw : WF [.call name [(k, .str s)]] := by
    refine ⟨⟨hn, ?_⟩, by simp, trivial, trivial, trivial⟩
    intro a ha; simp at ha; subst ha; exact hs
  have := parse_render_some L hw rfl
  simpa [render, renderItem, renderArgs, renderArg, renderLit, glue, meaning, Lit.value] using this

example (L : GoLib) : parse L (lit "#raw('it''s ) #f')") =
    .ok [.call (lit "raw") [.str (lit "it's ) #f")]] := by kernel_rfl

/-! ## C11 -/

/-- C11: a call whose argument list or string is not closed is a syntax error, after any
well-formed beginning of a template. -/
theorem C11_unclosed_call_rejected (L : GoLib) (pre : List Item) (name t : Str)
    (hw : WF (pre ++ [.call name []])) (ht : OpenArgs t) :
    ∃ e, parse L (render pre ++ lit "#" ++ name ++ lit "(" ++ t) = .error e := by
  have hn : isName name := by
    have : ∀ a : List Item, WF (a ++ [.call name []]) → isName name := by
      intro a
      induction a with
      | nil => exact fun h => h.1.1
      | cons i a ih => exact fun h => ih h.2.2.2.2
    exact this pre hw
  obtain ⟨h1, h2⟩ := wft_of_call (t := t) hw
  obtain ⟨Y, h3, h4⟩ := openArgs_scans ht L [0x28] false
  obtain ⟨e, he⟩ := parse_unclosed L pre name t Y hn h1 h2 h3 h4
  exact ⟨e, by simpa [lit] using he⟩

/-- `a=? #join('#f)', 1` and `a=? #join('#f)` are such templates. -/
example : WF ([.text (lit "a="), .qmark, .text (lit " ")] ++ [.call (lit "join") []]) ∧
    OpenArgs (List.replicate 0 0x20 ++ [0x27] ++ escapeQuotes (lit "#f)") ++ [0x27] ++ lit ", 1") ∧
    OpenArgs (List.replicate 0 0x20 ++ [0x27] ++ escapeQuotes (lit "#f)")) := by
  exact ⟨wf_check (by decide +kernel),
    .afterString 0 (by decide) (by decide) (.noParen (by decide)), .openString 0 (by decide)⟩

/-! ## C12 -/

/-- C12 is false: a `?` (or `$1`) directly after a bare function name is copied as text. -/
theorem C12_marker_after_function_counterexample (L : GoLib) :
    parse L (lit "#f?") = .ok [.func (lit "f"), .plain (lit "?")] := by kernel_rfl

/-- C12 for templates made of well-formed items (in which no marker directly follows a bare
function name): the clause has one bind variable for each `?` and `$n` of the template, and its
text is the text written outside of them.  Missing: arbitrary templates. -/
theorem C12_markers_bound_partial (L : GoLib) (is : List Item) (hw : WF is) (es : List Expr)
    (h : parse L (render is) = .ok es) :
    (refs es).length = (is.filter fun i => isQmark i || isDollarN i).length ∧
    plainText es = itemText is := by
  refine ⟨?_, C06_text_kept_partial L is hw es h⟩
  cases hm : meaning 0 false is with
  | none => rw [parse_render_none L hw hm] at h; simp at h
  | some es' =>
    obtain ⟨es'', h1, h2⟩ := parse_render_some L hw hm
    rw [h] at h1
    simp at h1; subst h1
    rw [← refs_glue, h2, refs_glue]
    have key : ∀ (is : List Item) (k : Nat) (q : Bool) (es : List Expr), meaning k q is = some es →
        (refs es).length = (is.filter fun i => isQmark i || isDollarN i).length := by
      intro is
      induction is with
      | nil => intro k q es h; simp [meaning] at h; subst h; rfl
      | cons i is ih =>
        intro k q es h
        cases i <;> simp [meaning] at h
        case dollarN n =>
          obtain ⟨_, es', he, rfl⟩ := h
          simp [refs, isQmark, isDollarN, ih _ _ _ he]
        all_goals
          obtain ⟨es', he, rfl⟩ := h
          simp [refs, isQmark, isDollarN, ih _ _ _ he]
    exact key is 0 false es' hm

example (L : GoLib) : ∃ es, parse L (lit "a=? '?' ??") = .ok es ∧ (refs es).length = 1 ∧
    plainText es = lit "a= '?' ??" := 
  ⟨[.plain (lit "a="), .bindVar question 1, .plain (lit " '?'"), .plain (lit " ??")],
    by kernel_rfl, by kernel_rfl, by kernel_rfl⟩

/-! ## C40 -/

/-- C40 is false: a name with a letter outside ASCII is accepted but cannot be called; the name
here is `é`. -/
theorem C40_nonascii_name_uncallable_counterexample (L : GoLib) (h : L.isLetterHi 0xE9 = true) :
    goodName L [0xC3, 0xA9] = true ∧
    parse L (lit "#" ++ [0xC3, 0xA9] ++ lit "(1)") = .error (.unexpectedToken .plain) := by
  constructor
  · have : runes [0xC3, 0xA9] = [0xE9] := by decide
    simp [goodName, this, isLetterRune, h]
  · kernel_rfl

/-- C40 for names all of whose bytes are ASCII: every accepted name is read as a call, with
parentheses, with an index and (in a `#join` template) bare.  Missing: names with other
letters. -/
theorem C40_ascii_names_callable_partial (L : GoLib) (name : Str) (h : goodName L name = true)
    (ha : ∀ b ∈ name, b < 0x80) :
    (∀ args : List (Nat × Lit), (∀ a ∈ args, a.2.WF) →
      ∃ es, parse L (lit "#" ++ name ++ lit "(" ++ renderArgs args) = .ok es ∧
        glue es = [.call name (args.map (·.2.value))]) ∧
    (∀ n, n < 10 ^ 15 → ∃ es, parse L (lit "#" ++ name ++ natDigits n) = .ok es ∧
      glue es = [.call name [.num (.nat n)]]) ∧
    ∃ es, parse L (lit "#" ++ name) = .ok es ∧ glue es = [.func name] := by
  have hn : isName name := by
    have key : ∀ (n : Nat) (s : Str), s.length ≤ n → (∀ b ∈ s, b < 0x80) →
        (∀ r ∈ runesAux n s, r = 0x5F ∨ isLetterRune L r = true) → ∀ b ∈ s, nameByte b = true := by
      intro n
      induction n with
      | zero => intro s hs _ _ b hb; have := List.length_pos_of_mem hb; omega
      | succ n ih =>
        intro s hs h1 h2 b hb
        cases s with
        | nil => simp at hb
        | cons c s =>
          have hc := h1 c (by simp)
          simp only [runesAux, decodeRune_ascii s hc, List.drop_succ_cons, List.drop_zero] at h2
          rcases List.mem_cons.mp hb with rfl | hb
          · have h3 := h2 b.toNat (by simp)
            simp only [isLetterRune] at h3
            have hlt : b.toNat < 0x80 := hc
            rw [if_pos hlt] at h3
            simp only [nameByte, UInt8.le_iff_toNat_le, ← UInt8.toNat_inj]
            simpa [or_comm] using h3
          · exact ih s (by simp at hs; omega) (fun x hx => h1 x (by simp [hx]))
              (fun r hr => h2 r (by simp [hr])) b hb
    simp only [goodName, Bool.and_eq_true, List.all_eq_true, Bool.or_eq_true, beq_iff_eq] at h
    exact ⟨by simpa using h.1, key _ _ (Nat.le_refl _) ha h.2⟩
  refine ⟨fun args hargs => ?_, fun n hlt => C09_call_value L name n hn hlt, ?_⟩
  · have := parse_render_some L (is := [.call name args])
      ⟨⟨hn, hargs⟩, by simp, trivial, trivial, trivial⟩ rfl
    simpa [render, renderItem, glue] using this
  · have := parse_render_some L (is := [.func name])
      ⟨hn, by simp, by simp [Follows, render], trivial, trivial⟩ rfl
    simpa [render, renderItem, glue] using this

example (L : GoLib) : goodName L (lit "my_fn") = true ∧ ∀ b ∈ lit "my_fn", b < 0x80 :=
  ⟨by kernel_rfl, by decide⟩

end Sqlf.Props

namespace Sqlf.Props

open Spec

/-- C46, the scanner's view: the literal `'…'` with doubled quotes, as `Interpolate` writes it, is
one piece of plain text. -/
theorem C46_literal_is_one_region (L : GoLib) (s : Str) (hs : 0 ∉ s) :
    ∃ es, parse L ([0x27] ++ escapeQuotes s ++ [0x27]) = .ok es ∧
      glue es = [.plain ([0x27] ++ escapeQuotes s ++ [0x27])] := by
  have hw : WF [.quoted 0x27 (escapeQuotes s)] :=
    ⟨Or.inl ⟨rfl, s, rfl, hs⟩, by simp, by simp [Follows, render], trivial, trivial⟩
  have := parse_render_some L hw rfl
  simpa [render, renderItem, glue, meaning] using this

example : (0 : UInt8) ∉ lit "a'; DROP TABLE t; -- $1 ?" := by decide

end Sqlf.Props
