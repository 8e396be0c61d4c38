import Verif.Proofs.InterpolateStyles
import Verif.Props.Args
import Verif.Props.QueryArgs
import Verif.Props.Interpolate
/-!
# C49: interpolation does not depend on the style
-/

namespace Sqlf.Props

open Spec

theorem same_of_rel {a b : Res Doc × List Val}
    (h : ResR 0 0 a.1 b.1 ∧ LogR (fun v w => v = w ∧ v.hashable = true) [] [] a.2 b.2) : a = b := by
  rcases a with ⟨r1, l1⟩
  rcases b with ⟨r2, l2⟩
  obtain ⟨hr, δ1, δ2, h1, h2, hp⟩ := h
  have hδ : δ1 = δ2 := (hp.mono fun a b h => h.1).eq
  simp only [List.nil_append] at h1 h2
  subst h1 h2 hδ
  cases r1 <;> cases r2 <;> first
    | exact hr.elim
    | rfl
    | (obtain ⟨e, rfl, rfl⟩ := hr; rfl)

theorem commits_alike {v w : Val} (h : v = w ∧ v.hashable = true) : cannotCommit question v = cannotCommit dollar w := by
  obtain ⟨rfl, h⟩ := h
  have : ¬ question = dollar := by decide
  simp [cannotCommit, h, this]

private theorem same_meaning (L : GoLib) (b : Builder) (ht : IsTree b) (hh : AllVals (fun v => ¬ Unhashable v) b) :
    meaningOf L question b = meaningOf L dollar b := by
  rw [not_unhashable_fun] at hh
  exact same_of_rel (sem_rel (R := fun v w => v = w ∧ v.hashable = true)
    (bad1 := cannotCommit question) (bad2 := cannotCommit dollar) (fun _ _ => commits_alike)
    L (fun s => (parse L s).toOption) b b (sameShape_self (fun v hv => ⟨rfl, hv⟩) b ht hh) [] [])

/-- **C49** Interpolating the Question build and the Dollar build of a tree gives the same text.  `d` is the
specified query of the tree, text with marks for the arguments.

(`_partial`: the tree is tidy, as for C20; its values can be map keys, as for C23; nothing that could be taken for
a part of a placeholder directly follows one, see `C49_digit_after_placeholder_counterexample`; values that are
`==` are written in the same way, see `C49_negative_zero_counterexample`; there are less than 2^63 arguments.) -/
theorem C49_interpolation_style_independent_partial (L : GoLib) (layout : Str) (b : Builder)
    (ht : tidy L (fun s => (parse L s).toOption) (cannotCommit question) b = true)
    (hh : AllVals (fun v => ¬ Unhashable v) b) (heap : List QB) (q q' : Str) (vs as : List Val)
    (hq : Returns L b question heap (.ok (q, vs))) (hd : Returns L b dollar heap (.ok (q', as)))
    (hm : ∀ d, meaningOf L question b = (.ok d, vs) → NoMarkers d) (hl : vs.length < 2 ^ 63)
    (hu : ∀ v ∈ vs, ∀ w ∈ vs, GoEqual w v → ∀ s, Encodes L layout v s ↔ Encodes L layout w s) (s : Str) :
    interpolate L layout q vs = .ok s ↔ interpolate L layout q' as = .ok s := by
  obtain ⟨d, h1, h2, rfl⟩ := C20_question_one_to_one_partial L b ht heap q vs hq
  obtain ⟨d', log, ps, st, h3, h4, -, rfl, rfl⟩ := returns_ok (tidy_isTree _ _ _ b ht) hd
  rw [← same_meaning L b (tidy_isTree _ _ _ b ht) hh, h1] at h3
  cases h3
  simp only [goEqual_iff] at hu
  exact interpolate_styles L layout d vs ps st h4 h2 (hm d h1) hl hu s

/-- **C49** The same for query builders.  (`_partial`: the conditions of C54 and C80 and those above.) -/
theorem C49_query_interpolation_style_independent_partial (L : GoLib) (layout : Str) (heap : List QB) (depth r : Nat)
    (h : QueryAt L heap depth r)
    (ht : Throughout L question (fun child b => TidyQB L child b ∧ ArgsInOrder child b) heap (depth + 1) r)
    (hv : ∀ b ∈ heap, ∃ cs, runCalls QB.new cs = .ok b ∧ ∀ c ∈ cs, CallOver (fun v => ¬ Unhashable v) c)
    (q q' : Str) (vs as : List Val)
    (hq : Returns L (.qb r) question heap (.ok (q, vs))) (hd : Returns L (.qb r) dollar heap (.ok (q', as)))
    (hm : ∀ d, queryMeaning L question heap depth r = (.ok d, vs) → NoMarkers d) (hl : vs.length < 2 ^ 63)
    (hu : ∀ v ∈ vs, ∀ w ∈ vs, GoEqual w v → ∀ s, Encodes L layout v s ↔ Encodes L layout w s) (s : Str) :
    interpolate L layout q vs = .ok s ↔ interpolate L layout q' as = .ok s := by
  obtain ⟨d, h1, h2, rfl⟩ := C54_query_question_args_in_order_partial L heap depth r h ht q vs hq
  obtain ⟨d', log, ps, st, h3, h4, -, rfl, rfl⟩ := outMatches_ok (returns_query h dollar) hd
  rw [not_unhashable_fun] at hv
  have hs : queryMeaning L question heap depth r = queryMeaning L dollar heap depth r := by
    refine same_of_rel (queryMeaning_rel L (fun _ _ => commits_alike) ?_ depth r)
    refine Spec.Pointwise.refl fun b hb => ?_
    obtain ⟨cs, h1, h2⟩ := hv b hb
    exact butForValues_self (fun v hv => ⟨rfl, hv⟩) h1 h2
  rw [← hs, h1] at h3
  cases h3
  simp only [goEqual_iff] at hu
  exact interpolate_styles L layout d vs ps st h4 h2 (hm d h1) hl hu s

/-- The document of the sample is free of markers. -/
example (L : GoLib) : ∀ d, meaningOf L question sampleTree =
    (.ok d, [.int 64 7, .int 64 7, .str 0 (lit "a"), .int 64 7]) → NoMarkers d := by
  intro d hd
  have : meaningOf L question sampleTree = (.ok (docOf [.text (lit "WHERE t.id = "), .mark 0, .text (lit " AND x IN ("),
    .mark 1, .text (lit ", "), .mark 2, .text (lit ") u AND y > "), .mark 3]),
    [.int 64 7, .int 64 7, .str 0 (lit "a"), .int 64 7]) := by kernel_rfl
  rw [this] at hd
  cases hd
  refine ⟨_, ?_, rfl⟩
  exact ⟨⟨by decide, by decide⟩, trivial, trivial, (by decide : isDigitB 0x20 = false), ⟨by decide, by decide⟩, trivial,
    trivial, (by decide : isDigitB 0x2C = false), ⟨by decide, by decide⟩, trivial, trivial,
    (by decide : isDigitB 0x29 = false), ⟨by decide, by decide⟩, trivial, trivial, trivial, trivial⟩

/-- The document of the full query is free of markers. -/
example (L : GoLib) : ∀ d vs, queryMeaning L question [fullQB, outerQB] 0 0 = (.ok d, vs) → NoMarkers d := by
  intro d vs hd
  have h : (queryMeaning L question [fullQB, outerQB] 0 0).1 = .ok (docOf [.text (lit
      "With c AS (SELECT 1) SELECT u.id, u.name FROM users AS u LEFT JOIN c ON c.id = "), .mark 0,
      .text (lit " WHERE u.age > "), .mark 1, .text (lit " AND u.group IN ("), .mark 2, .text (lit ", "), .mark 3,
      .text (lit ") GROUP BY u.id ORDER BY u.id DESC LIMIT 10 OFFSET 20 UNION (SELECT 2)")]) := by kernel_rfl
  rw [hd] at h
  cases h
  refine ⟨_, ?_, rfl⟩
  exact ⟨⟨by decide, by decide⟩, trivial, trivial, (by decide : isDigitB 0x20 = false), ⟨by decide, by decide⟩, trivial,
    trivial, (by decide : isDigitB 0x20 = false), ⟨by decide, by decide⟩, trivial,
    trivial, (by decide : isDigitB 0x2C = false), ⟨by decide, by decide⟩, trivial, trivial,
    (by decide : isDigitB 0x29 = false), ⟨by decide, by decide⟩, trivial, trivial⟩

/-- The two builds of the sample and their interpolation. -/
example (L : GoLib) (layout : Str) :
    interpolate L layout (lit "WHERE t.id = ? AND x IN (?, ?) u AND y > ?")
      [.int 64 7, .int 64 7, .str 0 (lit "a"), .int 64 7] = .ok (lit "WHERE t.id = 7 AND x IN (7, 'a') u AND y > 7") ∧
    interpolate L layout (lit "WHERE t.id = $1 AND x IN ($1, $2) u AND y > $1")
      [.int 64 7, .str 0 (lit "a")] = .ok (lit "WHERE t.id = 7 AND x IN (7, 'a') u AND y > 7") :=
  ⟨by kernel_rfl, by kernel_rfl⟩

/-- Values of the sample that are `==` are the same. -/
example (L : GoLib) (layout : Str) : ∀ v ∈ [Val.int 64 7, .int 64 7, .str 0 (lit "a"), .int 64 7],
    ∀ w ∈ [Val.int 64 7, .int 64 7, .str 0 (lit "a"), .int 64 7], GoEqual w v →
      ∀ s, Encodes L layout v s ↔ Encodes L layout w s := by
  intro v hv w hw he s
  simp only [List.mem_cons, List.not_mem_nil, or_false] at hv hw
  rcases hv with rfl | rfl | rfl | rfl <;> rcases hw with rfl | rfl | rfl | rfl <;> first | rfl | cases he

/-- A placeholder and a digit from another fragment. -/
def digitTree : Builder :=
  .frag (.mk (lit "#f1#f2") [] [.frag (.Fa (lit "?") [.int 64 7]), .frag (.F (lit "5"))] [] [])

/-- The full C49 fails: `?5` cannot be read, and `$15` refers to an argument that does not exist. -/
theorem C49_digit_after_placeholder_counterexample (L : GoLib) (layout : Str) :
    Returns L digitTree question [] (.ok (lit "?5", [.int 64 7])) ∧
    Returns L digitTree dollar [] (.ok (lit "$15", [.int 64 7])) ∧
    interpolate L layout (lit "?5") [.int 64 7] = .err (.parse (.unexpectedToken .literal)) ∧
    interpolate L layout (lit "$15") [.int 64 7] = .panic .indexOutOfRange :=
  ⟨returns_of_buildQuery (n := 200) (by kernel_rfl) (by simp), returns_of_buildQuery (n := 200) (by kernel_rfl) (by simp),
    by kernel_rfl, by kernel_rfl⟩

/-- Two values that are `==` but not written in the same way: `0.0` and `-0.0`. -/
def zeroTree : Builder := .frag (.Fa (lit "?, ?") [.float 64 ⟨false, 0, 0⟩, .float 64 ⟨false, 0, 1⟩])

/-- The full C49 fails for `0.0` and `-0.0`, which are one argument in the Dollar style. -/
theorem C49_negative_zero_counterexample (L : GoLib) (layout : Str) (h0 : L.formatFloat 0 = lit "0.000000")
    (h1 : L.formatFloat 1 = lit "-0.000000") :
    Returns L zeroTree question [] (.ok (lit "?, ?", [.float 64 ⟨false, 0, 0⟩, .float 64 ⟨false, 0, 1⟩])) ∧
    Returns L zeroTree dollar [] (.ok (lit "$1, $1", [.float 64 ⟨false, 0, 0⟩])) ∧
    interpolate L layout (lit "?, ?") [.float 64 ⟨false, 0, 0⟩, .float 64 ⟨false, 0, 1⟩] = .ok (lit "0.000000, -0.000000") ∧
    interpolate L layout (lit "$1, $1") [.float 64 ⟨false, 0, 0⟩] = .ok (lit "0.000000, 0.000000") := by
  refine ⟨returns_of_buildQuery (n := 200) (by kernel_rfl) (by simp), returns_of_buildQuery (n := 200) (by kernel_rfl) (by simp), ?_, ?_⟩
  · rw [C47_interpolate_fills_in]
    refine ⟨[.bindVar question 1, .plain (lit ","), .plain (lit " "), .bindVar question 2], by kernel_rfl, by decide, _, _, _, rfl, h0.symm,
      (by decide : lit "0.000000, -0.000000" = lit "0.000000" ++ lit ", -0.000000"), _, (by decide : _ = lit "," ++ lit " -0.000000"),
      _, (by decide : _ = lit " " ++ lit "-0.000000"), by decide, _, _, [], rfl, h1.symm, by decide, rfl⟩
  · rw [C47_interpolate_fills_in]
    refine ⟨[.bindVar dollar 1, .plain (lit ","), .plain (lit " "), .bindVar dollar 1], by kernel_rfl, by decide, _, _, _, rfl, h0.symm,
      (by decide : lit "0.000000, 0.000000" = lit "0.000000" ++ lit ", 0.000000"), _, (by decide : _ = lit "," ++ lit " 0.000000"),
      _, (by decide : _ = lit " " ++ lit "0.000000"), by decide, _, _, [], rfl, h0.symm, by decide, rfl⟩

end Sqlf.Props
