import Verif.Spec.Segments
import Verif.Proofs.Segments
import Verif.Proofs.CutAtNul
import Verif.Proofs.Interpolate
import Verif.KernelRfl
/-!
# Templates, for every text

`Verif.Spec.Reader` is a reference reader: one pass over the bytes of a text, without tokens, scanner
states and parser state.
-/

namespace Sqlf.Props

open Spec

/-! ## C82 -/

/-- C82: `Parse` accepts exactly the texts that the reference reader accepts. -/
theorem C82_accepts_templates (L : GoLib) (s : Str) :
    (∃ es, parse L s = .ok es) ↔ ∃ es, readTemplate L s = some es := by
  have h := parse_read L s
  cases hr : readTemplate L s with
  | none =>
    rw [hr] at h
    obtain ⟨e, he⟩ := h
    simp [he]
  | some es =>
    rw [hr] at h
    obtain ⟨es', he, _⟩ := h
    simp [he]

/-- C82: and reads the same expressions in them, up to the division of plain text. -/
theorem C82_reads_templates (L : GoLib) (s : Str) (es : List Expr) (h : parse L s = .ok es) :
    ∃ es', readTemplate L s = some es' ∧ glue es = glue es' := by
  have hp := parse_read L s
  cases hr : readTemplate L s with
  | none => rw [hr] at hp; obtain ⟨e, he⟩ := hp; rw [h] at he; simp at he
  | some es' =>
    rw [hr] at hp
    obtain ⟨es'', he, hg⟩ := hp
    rw [h] at he; simp at he; subst he
    exact ⟨es', rfl, hg⟩

example (L : GoLib) : readTemplate L (lit "a=$2 '$x' #join('#f', ' ')#c1;") =
    some ((lit "a=").map (fun b => .plain [b]) ++ [.bindVar dollar 2, .plain (lit " "), .plain (lit "'$x'"),
      .plain (lit " "), .call (lit "join") [.str (lit "#f"), .str (lit " ")],
      .call (lit "c") [.num (.nat 1)], .plain (lit ";")]) := by kernel_rfl

example (L : GoLib) : readTemplate L (lit "a=$x") = none ∧ readTemplate L (lit "?1") = none ∧
    readTemplate L (lit "?, $1") = none ∧ readTemplate L (lit "#join('#f', ' '") = none ∧
    readTemplate L (lit "# ") = none := by
  refine ⟨?_, ?_, ?_, ?_, ?_⟩ <;> kernel_rfl

/-! ## C06, C12: every byte -/

/-- C06 for every template without NUL that `Parse` accepts: it can be cut into pieces, none of which is
dropped, and of which every one is copied as it is unless it is a `?`, a `$n` or starts with `#` (see
`Segment`).  Missing: templates that contain a NUL, for which the claim is false
(`C06_nul_drops_rest_counterexample`). -/
theorem C06_nothing_dropped_partial (L : GoLib) (s : Str) (h0 : 0 ∉ s) (es : List Expr)
    (h : parse L s = .ok es) :
    ∃ ps, source ps = s ∧ Segments L false ps ∧ glue es = glue (ps.map (·.2)) := by
  obtain ⟨es', hr, hg⟩ := C82_reads_templates L s es h
  obtain ⟨ps, h1, h2, h3⟩ := segments_of_read L _ _ _ s es' h0 hr
  exact ⟨ps, h1, h3, by rw [h2, hg]⟩

/-- C06: a template is read up to its first NUL: what follows is dropped, whatever it is, and nothing else is
dropped. -/
theorem C06_reading_stops_at_nul (L : GoLib) (s : Str) :
    (0 ∈ s → ∀ q, parse L (beforeNul s ++ 0 :: q) = parse L s) ∧ parse L (beforeNul s) = parse L s ∧
    ∀ es, parse L s = .ok es →
      ∃ ps, source ps = beforeNul s ∧ Segments L false ps ∧ glue es = glue (ps.map (·.2)) := by
  refine ⟨fun _ q => ?_, parse_beforeNul L s, fun es h => ?_⟩
  · rw [parse_cut, parse_beforeNul]
  · exact C06_nothing_dropped_partial L _ (nul_notMem_beforeNul s) es (by rw [parse_beforeNul, h])

/-- A NUL inside of quotes ends a template as well: what is read is an open quote. -/
example (L : GoLib) : beforeNul (lit "a = 'x" ++ 0 :: lit "' AND b = $1") = lit "a = 'x" ∧
    ∃ es, parse L (lit "a = 'x" ++ 0 :: lit "' AND b = $1") = .ok es ∧ glue es = [.plain (lit "a = 'x")] :=
  ⟨by decide, [.plain (lit "a = 'x")], by kernel_rfl, by decide⟩

/-- The pieces of a template. -/
example (L : GoLib) : ∃ ps, source ps = lit "a?'?'#f" ∧ Segments L false ps ∧
    ps.map (·.2) = [.plain (lit "a"), .bindVar question 1, .plain (lit "'?'"), .func (lit "f")] :=
  ⟨[(lit "a", .plain (lit "a")), (lit "?", .bindVar question 1), (lit "'?'", .plain (lit "'?'")),
      (lit "#f", .func (lit "f"))], by decide,
    ⟨.byte (by decide), .question, .quoted (.inl rfl) (by decide), .func (name := lit "f") ⟨by decide, by decide⟩, trivial⟩, rfl⟩

/-- C12 for every template that `Parse` accepts: of the pieces it (up to a NUL) is cut into, a `?` that is
copied is doubled, or inside of quotes, or directly follows a bare function name.  Missing: the last case,
in which the claim is false (`C12_marker_after_function_counterexample`). -/
theorem C12_copied_markers_partial (L : GoLib) (s : Str) (es : List Expr)
    (h : parse L s = .ok es) :
    ∃ ps, source ps = beforeNul s ∧ glue es = glue (ps.map (·.2)) ∧
      ∀ pre src t post, ps = pre ++ (src, .plain t) :: post → 0x3F ∈ t →
        src = t ∧ (t = lit "??" ∨ (∃ c u, t = c :: u ∧ (c = 0x27 ∨ c = 0x22 ∨ c = 0x60)) ∨
          t = lit "?" ∧ ∃ pre' name, pre = pre' ++ [(lit "#" ++ name, .func name)]) := by
  obtain ⟨ps, h1, h2, h3⟩ := (C06_reading_stops_at_nul L s).2.2 es h
  refine ⟨ps, h1, h3, ?_⟩
  intro pre src t post hps hq
  have key : ∀ (pre ps : List (Str × Expr)) (a : Bool), Segments L a ps → ps = pre ++ (src, .plain t) :: post →
      src = t ∧ (t = lit "??" ∨ (∃ c u, t = c :: u ∧ (c = 0x27 ∨ c = 0x22 ∨ c = 0x60)) ∨
          t = lit "?" ∧ ((pre = [] ∧ a = true) ∨ ∃ pre' name, pre = pre' ++ [(lit "#" ++ name, .func name)])) := by
    intro pre
    induction pre with
    | nil =>
      intro ps a hs he
      subst he
      have := hs.1
      cases this with
      | byte h => simp at hq; subst hq; simp [plainByte] at h
      | doubled h =>
        refine ⟨rfl, .inl ?_⟩
        rcases h with h | h
        · subst h; simp at hq
        · subst h; rfl
      | quoted h => exact ⟨rfl, .inr (.inl ⟨_, _, rfl, h⟩)⟩
      | unclosed h => exact ⟨rfl, .inr (.inl ⟨_, _, rfl, h⟩)⟩
      | sign h h' => simp at hq; subst hq; exact ⟨rfl, .inr (.inr ⟨rfl, .inl ⟨rfl, h⟩⟩)⟩
    | cons p pre ih =>
      intro ps a hs he
      subst he
      obtain ⟨h4, h5 | h5 | ⟨h5, h6⟩⟩ := ih _ _ hs.2 rfl
      · exact ⟨h4, .inl h5⟩
      · exact ⟨h4, .inr (.inl h5)⟩
      · refine ⟨h4, .inr (.inr ⟨h5, .inr ?_⟩)⟩
        rcases h6 with ⟨rfl, h7⟩ | ⟨pre', name, rfl⟩
        · obtain ⟨ps, pe⟩ := p
          have h8 := hs.1
          cases pe <;> simp [isBareName] at h7
          cases h8
          exact ⟨[], _, rfl⟩
        · exact ⟨p :: pre', name, rfl⟩
  obtain ⟨h4, h5 | h5 | ⟨h5, h6⟩⟩ := key pre ps false h2 hps
  · exact ⟨h4, .inl h5⟩
  · exact ⟨h4, .inr (.inl h5)⟩
  · refine ⟨h4, .inr (.inr ⟨h5, ?_⟩)⟩
    rcases h6 with ⟨_, h7⟩ | h7
    · simp at h7
    · exact h7

/-! ## C07, C08: every template -/

/-- C07, C08 for every text that `Parse` accepts: a `?` refers to the argument at its own position
among the bind variables, and no `$n` follows a `?`. -/
theorem numbered_of_parse (L : GoLib) (s : Str) (es : List Expr) (h : parse L s = .ok es) :
    Numbered 0 false es := by
  obtain ⟨es', hr, hg⟩ := C82_reads_templates L s es h
  rw [← Numbered.glue, hg, Numbered.glue]
  exact numbered_of_read L _ _ _ _ _ hr

/-- In a numbered clause a `?` is numbered by its position. -/
theorem Numbered.position {i : Int} {post : List Expr} : ∀ (pre : List Expr) (k : Nat) (q : Bool),
    Numbered k q (pre ++ .bindVar question i :: post) → i = (k + (refs pre).length + 1 : Nat) := by
  intro pre
  induction pre with
  | nil => intro k q h; simp [Numbered] at h; simp [refs, h.1]
  | cons e pre ih =>
    intro k q h
    cases e with
    | bindVar st j =>
      simp only [List.cons_append, Numbered] at h
      split at h
      all_goals
        have := ih _ _ h.2
        rw [this, refs, List.length_cons]
        congr 1; omega
    | _ => exact ih k q h

/-- C07: in every text that `Parse` accepts, a `?` refers to the argument at its own position among the
bind variables. -/
theorem C07_every_question_mark (L : GoLib) (s : Str) (pre post : List Expr) (i : Int)
    (h : parse L s = .ok (pre ++ .bindVar question i :: post)) : i = ((refs pre).length + 1 : Nat) := by
  simpa using Numbered.position pre 0 false (numbered_of_parse L s _ h)

/-- C07 for every template that `Parse` accepts: of the pieces it (up to a NUL) is cut into, those that stand
for bind variables are the `?`s, which refer to the argument at their own position among the bind
variables, and the `$n`s, which refer to argument `n`.  (An `n` that is no Go `int` refers to no argument:
the index is negative.) -/
theorem C07_every_bind_variable (L : GoLib) (s : Str) (es : List Expr) (h : parse L s = .ok es) :
    ∃ ps, source ps = beforeNul s ∧ Segments L false ps ∧ glue es = glue (ps.map (·.2)) ∧
      ∀ pre src st (i : Int) post, ps = pre ++ (src, .bindVar st i) :: post →
        st = question ∧ src = lit "?" ∧ i = ((refs (pre.map (·.2))).length + 1 : Nat) ∨
        st = dollar ∧ ∃ t n, src = lit "$" ++ t ∧ IsDecimal t n ∧ 1 ≤ n ∧
          (n < 2 ^ 63 ∧ i = n ∨ 2 ^ 63 ≤ n ∧ i < 0) := by
  obtain ⟨ps, h1, h2, h3⟩ := (C06_reading_stops_at_nul L s).2.2 es h
  refine ⟨ps, h1, h2, h3, ?_⟩
  intro pre src st i post hps
  have hn : Numbered 0 false (ps.map (·.2)) := by
    rw [← Numbered.glue, ← h3, Numbered.glue]; exact numbered_of_parse L s es h
  have key : ∀ (pre ps : List (Str × Expr)) (a : Bool), Segments L a ps →
      ps = pre ++ (src, .bindVar st i) :: post → ∃ a, Segment L a src (.bindVar st i) := by
    intro pre
    induction pre with
    | nil => intro ps a hs he; subst he; exact ⟨a, hs.1⟩
    | cons p pre ih => intro ps a hs he; subst he; exact ih _ _ hs.2 rfl
  obtain ⟨a, hseg⟩ := key pre ps false h2 hps
  cases hseg with
  | question =>
    refine .inl ⟨rfl, rfl, ?_⟩
    subst hps
    rw [List.map_append, List.map_cons] at hn
    simpa using Numbered.position _ _ _ hn
  | @dollar ds _ hd hall hi =>
    refine .inr ⟨rfl, ds, digitsVal ds, rfl, ?_, ?_, hi⟩
    · cases ds with
      | nil => simp [startsWith] at hd
      | cons d ds =>
        refine ⟨by simp, hall, ?_, rfl⟩
        intro h; simp at h; subst h; simp [startsWith, digit19] at hd
    · cases ds with
      | nil => simp [startsWith] at hd
      | cons d ds =>
        refine digitsVal_pos (by simp) hall ?_
        intro h; simp at h; subst h; simp [startsWith, digit19] at hd

/-- C08: in no text that `Parse` accepts does a `$n` follow a `?`.  Missing: a `?` after a `$n`, which is
accepted (`C08_question_after_dollar_accepted_counterexample`). -/
theorem C08_no_dollar_after_question_partial (L : GoLib) (s : Str) (pre mid post : List Expr) (i j : Int) :
    parse L s ≠ .ok (pre ++ .bindVar question i :: (mid ++ .bindVar dollar j :: post)) := by
  intro h
  have key2 : ∀ (mid : List Expr) (k : Nat), ¬ Numbered k true (mid ++ .bindVar dollar j :: post) := by
    intro mid
    induction mid with
    | nil => intro k h; simp [Numbered, dollar, question] at h
    | cons e mid ih =>
      intro k h
      cases e with
      | bindVar st j =>
        simp only [List.cons_append, Numbered] at h
        split at h
        · exact ih _ h.2
        · simp at h
      | _ => exact ih k h
  have key : ∀ (pre : List Expr) (k : Nat) (q : Bool),
      ¬ Numbered k q (pre ++ .bindVar question i :: (mid ++ .bindVar dollar j :: post)) := by
    intro pre
    induction pre with
    | nil => intro k q h; simp [Numbered] at h; exact key2 _ _ h.2
    | cons e pre ih =>
      intro k q h
      cases e with
      | bindVar st j =>
        simp only [List.cons_append, Numbered] at h
        split at h <;> exact ih _ _ h.2
      | _ => exact ih k q h
  exact key pre 0 false (numbered_of_parse L s _ h)

/-- Two templates with bind variables, in the pieces of the theorem. -/
example (L : GoLib) : (∃ es, parse L (lit "$12") = .ok es ∧ es = [.bindVar dollar 12]) ∧
    Segments L false [(lit "$12", .bindVar dollar 12)] ∧
    (∃ es, parse L (lit "$9223372036854775808") = .ok es ∧ es = [.bindVar dollar (-9223372036854775808)]) :=
  ⟨⟨_, by kernel_rfl, rfl⟩, ⟨.dollar (ds := lit "12") (by decide) (by decide) (.inl ⟨by decide, by decide⟩), trivial⟩,
    ⟨_, by kernel_rfl, rfl⟩⟩

example (L : GoLib) : parse L (lit "a=? and b=?") = .ok ([.plain (lit "a="), .bindVar question 1,
    .plain (lit " and b=")] ++ .bindVar question 2 :: []) := by kernel_rfl

end Sqlf.Props
