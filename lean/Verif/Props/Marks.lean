import Verif.Spec.Written
import Verif.Proofs.Debug
import Verif.Props.Args
import Verif.Props.QueryArgs
import Verif.Props.Scan
import Verif.Props.Debug
/-!
# C20, C81 without conditions on `#join`; C96: built queries can be interpolated
-/

namespace Sqlf.Props

open Spec

/-! ## C20, C81 -/

/-- **C20** Whatever the tree: in the Question style each placeholder has an argument of its own, so that there are
never more placeholders than arguments. -/
theorem C20_no_placeholder_without_argument (L : GoLib) (b : Builder) (ht : IsTree b) (heap : List QB)
    (q : Str) (as : List Val) (h : Returns L b question heap (.ok (q, as))) :
    ∃ d, meaningOf L question b = (.ok d, as) ∧ (binds d).Nodup ∧ (∀ k ∈ binds d, k < as.length) ∧
      (binds d).length ≤ as.length ∧ q = renderDoc (List.replicate as.length (lit "?")) d := by
  obtain ⟨d, log, ps, st, h1, h2, h3, rfl, rfl⟩ := returns_ok ht h
  rw [commitAll_question _ _ rfl] at h2
  cases h2
  obtain ⟨b1, b2, b3⟩ := (sem_marked L _ _ b).binds (log := []) h1
  exact ⟨d, h1, b1, fun k hk => (b2 k hk).2, b3, rfl⟩

/-- **C81** The same for query builders. -/
theorem C81_no_placeholder_without_argument (L : GoLib) (heap : List QB) (depth r : Nat) (h : QueryAt L heap depth r)
    (q : Str) (as : List Val) (hr : Returns L (.qb r) question heap (.ok (q, as))) :
    ∃ d, queryMeaning L question heap depth r = (.ok d, as) ∧ (binds d).Nodup ∧ (∀ k ∈ binds d, k < as.length) ∧
      (binds d).length ≤ as.length ∧ q = renderDoc (List.replicate as.length (lit "?")) d := by
  obtain ⟨d, log, ps, st, h1, h2, -, rfl, rfl⟩ := outMatches_ok (returns_query h question) hr
  rw [commitAll_question _ _ rfl] at h2
  cases h2
  obtain ⟨b1, b2, b3⟩ := (heapSem_marked L _ _ heap (depth + 1) r).binds (log := []) h1
  exact ⟨d, h1, b1, fun k hk => (b2 k hk).2, b3, rfl⟩

/-- The trees that leave an argument behind are covered. -/
example (L : GoLib) : IsTree (.frag (.mk (lit "#join('#arg #f', ', ')") [.int 64 1, .int 64 2] [.table (lit "x")] [] [])) ∧
    Returns L (.frag (.mk (lit "#join('#arg #f', ', ')") [.int 64 1, .int 64 2] [.table (lit "x")] [] []))
      question [] (.ok (lit "? x", [.int 64 1, .int 64 2])) :=
  ⟨by simp [IsTree, IsTreeF, IsTreeL], C20_join_leak_counterexample L⟩

example (L : GoLib) : QueryAt L [leakQB] 0 0 ∧
    Returns L (.qb 0) question [leakQB] (.ok (lit "SELECT 1 FROM t WHERE ? x", [.int 64 1, .int 64 2])) :=
  ⟨⟨leakQB, leakCalls, rfl, made_of_calls (by rfl), by decide +kernel, noCodeL_check _ (by decide +kernel), by
    rw [show qbRefsL (partsOf leakQB) = [] by decide +kernel]
    intro r hr; cases hr⟩, (C81_join_leak_counterexample L).1⟩

/-! ## C96 -/

private theorem written_returns {L : GoLib} {style : Style} {heap : List QB} {b : Builder} {d : Doc} {vs : List Val}
    (h : Written L style heap b d vs) {q : Str} {as : List Val} (hr : Returns L b style heap (.ok (q, as))) :
    ∃ ps st, commitAll (Store.new style) vs = some (ps, st) ∧ q = renderDoc ps d ∧ as = st.args ∧
      (∀ k ∈ binds d, k < vs.length) ∧ (binds d).length ≤ vs.length := by
  obtain ⟨depth, ⟨hc, hn, hm⟩ | ⟨r, rfl, hq, hm⟩⟩ := h
  · obtain ⟨d', vs', ps, st, h1, h2, -, h3, h4⟩ := outMatches_ok (returns_builder hc hn style) hr
    rw [hm] at h1
    cases h1
    obtain ⟨-, b2, b3⟩ := (semQ_marked L _ _ _ (heapSem_marked L _ _ heap depth) b).binds (log := []) hm
    exact ⟨ps, st, h2, h3, h4, fun k hk => (b2 k hk).2, b3⟩
  · obtain ⟨d', vs', ps, st, h1, h2, -, h3, h4⟩ := outMatches_ok (returns_query hq style) hr
    rw [hm] at h1
    cases h1
    obtain ⟨-, b2, b3⟩ := (heapSem_marked L _ _ heap (depth + 1) r).binds (log := []) hm
    exact ⟨ps, st, h2, h3, h4, fun k hk => (b2 k hk).2, b3⟩

private theorem not_panic {L : GoLib} {layout q : Str} {as : List Val} (h : ∀ p, interpolate L layout q as ≠ .panic p) :
    (∃ t, interpolate L layout q as = .ok t) ∨ ∃ e, interpolate L layout q as = .err e := by
  cases hi : interpolate L layout q as with
  | ok t => exact .inl ⟨t, rfl⟩
  | err e => exact .inr ⟨e, rfl⟩
  | panic p => exact absurd hi (h p)
  | oof => exact absurd hi (interpolate_not_oof L layout _ _)

/-- **C96** Interpolating the arguments of a built query into it returns a text or an error, it does not panic.
(`_partial`: if no text of the query can be taken for a placeholder, see `C96_count_panics_counterexample`; less than
2^63 values are committed, none of which is a nil pointer with a method of the type it points to, see
`C96_nil_pointer_counterexample`.) -/
theorem C96_built_query_interpolates_partial (L : GoLib) (style : Style) (heap : List QB) (b : Builder) (d : Doc) (vs : List Val)
    (h : Written L style heap b d vs) (hd : NoMarkers d) (hl : vs.length < 2 ^ 63)
    (hw : ∀ v ∈ vs, ¬ WritingPanics v) (q : Str) (as : List Val)
    (hr : Returns L b style heap (.ok (q, as))) (layout : Str) :
    (∃ t, interpolate L layout q as = .ok t) ∨ ∃ e, interpolate L layout q as = .err e := by
  obtain ⟨ps, st, h1, rfl, rfl, h2, h3⟩ := written_returns h hr
  exact not_panic (interpolate_noMarkers L layout style d vs ps st h1 h2 h3 hd hl hw)

private theorem before_head (p p' : Piece) (xs ys : List Piece) (h : p.before (p' :: xs)) : p.before (p' :: ys) := by
  unfold Piece.before at h ⊢
  split <;> simp_all

private theorem before_text (p : Piece) (x : UInt8) (t u : Str) (xs ys : List Piece) (h : p.before (.text (x :: t) :: xs)) :
    p.before (.text (x :: u) :: ys) := by
  unfold Piece.before at h ⊢
  split <;> simp_all

private theorem pieces_after {s : Str} (hs : s ≠ []) (hp : ∀ b ∈ s, plainByte b = true) (hn : ∀ b ∈ s.head?, isDigitB b = false) :
    ∀ ps, Pieces ps → ∃ ps', Pieces ps' ∧ docOf ps' = docOf ps ++ Doc.ofStr s ∧
      (ps' = ps ++ [.text s] ∨ ∃ t, ps' = ps.dropLast ++ [.text (t ++ s)] ∧ ps.getLast? = some (.text t))
  | [], _ => ⟨[.text s], ⟨⟨hs, hp⟩, trivial, trivial⟩, by simp [docOf], .inl rfl⟩
  | [p], h => by
    cases p with
    | text t =>
      refine ⟨[.text (t ++ s)], ⟨⟨by simp [hs], fun b hb => ?_⟩, trivial, trivial⟩, by simp [docOf, Doc.ofStr], .inr ⟨t, rfl, rfl⟩⟩
      rcases List.mem_append.1 hb with hb | hb
      · exact h.1.2 b hb
      · exact hp b hb
    | quoted c t => exact ⟨[.quoted c t, .text s], ⟨h.1, by simp [Piece.before], ⟨hs, hp⟩, trivial, trivial⟩, by simp [docOf, Doc.ofStr], .inl rfl⟩
    | esc c => exact ⟨[.esc c, .text s], ⟨h.1, by simp [Piece.before], ⟨hs, hp⟩, trivial, trivial⟩, by simp [docOf, Doc.ofStr], .inl rfl⟩
    | mark k =>
      refine ⟨[.mark k, .text s], ⟨h.1, ?_, ⟨hs, hp⟩, trivial, trivial⟩, by simp [docOf, Doc.ofStr], .inl rfl⟩
      cases s with
      | nil => exact absurd rfl hs
      | cons b s => exact hn b rfl
  | p :: p' :: ps, h => by
    obtain ⟨ps', h1, h2, h3⟩ := pieces_after hs hp hn (p' :: ps) h.2.2
    have hd : docOf (p :: ps') = docOf (p :: p' :: ps) ++ Doc.ofStr s := by
      cases p <;> simp [docOf, h2, Doc.ofStr]
    have hb : p.before ps' := by
      have hpb := h.2.1
      rcases h3 with rfl | ⟨t, rfl, h4⟩
      · exact before_head _ _ _ _ hpb
      · cases ps with
        | cons p'' ps => exact before_head _ _ _ _ hpb
        | nil =>
          simp only [List.getLast?_singleton, Option.some.injEq] at h4
          subst h4
          have ht : t ≠ [] := h.2.2.1.1
          cases t with
          | nil => exact absurd rfl ht
          | cons x t => exact before_text _ _ _ _ _ _ hpb
    refine ⟨p :: ps', ⟨h.1, hb, h1⟩, hd, ?_⟩
    rcases h3 with rfl | ⟨t, rfl, h4⟩
    · exact .inl rfl
    · exact .inr ⟨t, by simp, by simpa using h4⟩

private theorem noMarkers_count {d : Doc} (h : NoMarkers d) :
    NoMarkers (Doc.ofStr (lit "SELECT COUNT(1) FROM (") ++ d ++ Doc.ofStr (lit ") list")) := by
  obtain ⟨ps, hp, rfl⟩ := h
  obtain ⟨ps, h1, h2, -⟩ := pieces_after (s := lit ") list") (by decide) (by decide +kernel) (by decide) ps hp
  rw [List.append_assoc, ← h2]
  clear h2 hp
  cases ps with
  | nil => exact ⟨[.text (lit "SELECT COUNT(1) FROM (")], ⟨⟨by decide, by decide +kernel⟩, trivial, trivial⟩, by simp [docOf]⟩
  | cons p ps =>
    cases p with
    | text t =>
      refine ⟨.text (lit "SELECT COUNT(1) FROM (" ++ t) :: ps, ⟨⟨by simp [h1.1.1], fun b hb => ?_⟩, ?_, h1.2.2⟩, by simp [docOf, Doc.ofStr]⟩
      · rcases List.mem_append.1 hb with hb | hb
        · exact (by decide +kernel : ∀ b ∈ lit "SELECT COUNT(1) FROM (", plainByte b = true) b hb
        · exact h1.1.2 b hb
      · have := h1.2.1
        cases ps with
        | nil => trivial
        | cons p' ps => cases p' <;> exact this
    | quoted c t => exact ⟨.text _ :: _, ⟨⟨by decide, by decide +kernel⟩, by simp [Piece.before], h1⟩, rfl⟩
    | esc c => exact ⟨.text _ :: _, ⟨⟨by decide, by decide +kernel⟩, by simp [Piece.before], h1⟩, rfl⟩
    | mark k => exact ⟨.text _ :: _, ⟨⟨by decide, by decide +kernel⟩, by simp [Piece.before], h1⟩, rfl⟩

private theorem renderDoc_count (ps : List Str) (d : Doc) :
    renderDoc ps (Doc.ofStr (lit "SELECT COUNT(1) FROM (") ++ d ++ Doc.ofStr (lit ") list")) =
      lit "SELECT COUNT(1) FROM (" ++ renderDoc ps d ++ lit ") list" := by
  rw [renderDoc_append, renderDoc_append, renderDoc_ofStr, renderDoc_ofStr]

/-- **C96** If the database fails to count the rows of a built query, CountBuilder returns this error, wrapped with the
query it sent, arguments filled in.  (`_partial`: as above; with the empty text, if interpolating is an error.) -/
theorem C96_count_returns_the_error_partial (L : GoLib) (style : Style) (heap : List QB) (b : Builder) (d : Doc) (vs : List Val)
    (h : Written L style heap b d vs) (hd : NoMarkers d) (hl : vs.length < 2 ^ 63)
    (hw : ∀ v ∈ vs, ¬ WritingPanics v) (q : Str) (as : List Val)
    (hr : Returns L b style heap (.ok (q, as))) (db : Str → List Val → CountReply) (e : Err)
    (he : db (lit "SELECT COUNT(1) FROM (" ++ q ++ lit ") list") as = .err e) :
    ∃ text, EndsWith (fun n => countBuilder L n db b style heap)
        (.err (.wrap text e), [(lit "SELECT COUNT(1) FROM (" ++ q ++ lit ") list", as)]) ∧
      (interpolate L rfc3339 (lit "SELECT COUNT(1) FROM (" ++ q ++ lit ") list") as = .ok text ∨
        text = [] ∧ ∃ e', interpolate L rfc3339 (lit "SELECT COUNT(1) FROM (" ++ q ++ lit ") list") as = .err e') := by
  obtain ⟨ps, st, h1, rfl, rfl, h2, h3⟩ := written_returns h hr
  have hb : binds (Doc.ofStr (lit "SELECT COUNT(1) FROM (") ++ d ++ Doc.ofStr (lit ") list")) = binds d := by
    simp [binds_append, binds_ofStr]
  have hi := not_panic (interpolate_noMarkers L rfc3339 style _ vs ps st h1 (by rw [hb]; exact h2) (by rw [hb]; exact h3)
    (noMarkers_count hd) hl hw)
  rw [renderDoc_count] at hi
  obtain ⟨-, N, hN⟩ := hr
  rcases hi with ⟨t, ht⟩ | ⟨e', ht⟩
  · refine ⟨t, ⟨N, fun n hn => ?_⟩, .inl ht⟩
    dsimp only
    unfold countBuilder
    rw [hN n hn]
    simp only [count, countQuery, he, ht]
  · refine ⟨[], ⟨N, fun n hn => ?_⟩, .inr ⟨rfl, e', ht⟩⟩
    dsimp only
    unfold countBuilder
    rw [hN n hn]
    simp only [count, countQuery, he, ht]

def quotedFragment : Builder := .frag (.Fa (lit "SELECT '?' FROM t WHERE data ?? 'k' AND id = ?") [.int 64 7])

def quotedPieces : List Piece :=
  [.text (lit "SELECT "), .quoted 0x27 (lit "?"), .text (lit " FROM t WHERE data "), .esc 0x3F, .text (lit " "),
    .quoted 0x27 (lit "k"), .text (lit " AND id = "), .mark 0]

/-- A fragment with a quoted `?` and an escaped one, and a query builder, meet the conditions. -/
example (L : GoLib) : Written L dollar [] quotedFragment (docOf quotedPieces) [.int 64 7] ∧ NoMarkers (docOf quotedPieces) ∧
    (∀ v ∈ [Val.int 64 7], ¬ WritingPanics v) ∧
    Returns L quotedFragment dollar [] (.ok (lit "SELECT '?' FROM t WHERE data ?? 'k' AND id = $1", [.int 64 7])) := by
  refine ⟨⟨0, .inl ⟨noCode_check _ (by decide +kernel), ?_, by kernel_rfl⟩⟩,
    ⟨quotedPieces, ?_, rfl⟩, by simp [WritingPanics], returns_of_buildQuery (n := 200) (by kernel_rfl) (by simp)⟩
  · rw [show qbRefs quotedFragment = [] by decide +kernel]
    intro r hr; cases hr
  · exact ⟨⟨by decide, by decide⟩, trivial, .inl ⟨rfl, lit "?", by decide, by decide⟩, trivial, ⟨by decide, by decide⟩, trivial, .inr rfl,
      trivial, ⟨by decide, by decide⟩, trivial, .inl ⟨rfl, lit "k", by decide, by decide⟩, trivial, ⟨by decide, by decide⟩, trivial,
      trivial, trivial, trivial⟩

example (L : GoLib) : Written L dollar [idQB] (.qb 0) (docOf [.text (lit "SELECT 1 FROM t WHERE id = "), .mark 0]) [.int 64 7] ∧
    NoMarkers (docOf [.text (lit "SELECT 1 FROM t WHERE id = "), .mark 0]) ∧
    Returns L (.qb 0) dollar [idQB] (.ok (lit "SELECT 1 FROM t WHERE id = $1", [.int 64 7])) :=
  ⟨⟨0, .inr ⟨0, rfl, idQB_at L, by kernel_rfl⟩⟩,
    ⟨[.text (lit "SELECT 1 FROM t WHERE id = "), .mark 0], ⟨⟨by decide, by decide⟩, trivial, trivial, trivial, trivial⟩, rfl⟩,
    returns_of_buildQuery (n := 200) (by kernel_rfl) (by simp)⟩

/-- The query of a fragment with the name of a table that looks like a placeholder. -/
def markerTable : Builder := .frag (.Ff (lit "SELECT 1 FROM #f1") [.table (lit "$5")])

/-- The full C96 fails: the query is built, but CountBuilder panics if the database fails. -/
theorem C96_count_panics_counterexample (L : GoLib) (e : Err) :
    Returns L markerTable dollar [] (.ok (lit "SELECT 1 FROM $5", [])) ∧
    interpolate L rfc3339 (lit "SELECT 1 FROM $5") [] = .panic .indexOutOfRange ∧
    EndsWith (fun n => countBuilder L n (fun _ _ => .err e) markerTable dollar [])
      (.panic .indexOutOfRange, [(lit "SELECT COUNT(1) FROM (SELECT 1 FROM $5) list", [])]) := by
  have h : Returns L markerTable dollar [] (.ok (lit "SELECT 1 FROM $5", [])) :=
    returns_of_buildQuery (n := 200) (by kernel_rfl) (by simp)
  refine ⟨h, by kernel_rfl, ?_⟩
  obtain ⟨-, N, hN⟩ := h
  refine ⟨N, fun n hn => ?_⟩
  dsimp only
  unfold countBuilder
  rw [hN n hn]
  have hc : count L (fun _ _ => .err e) (lit "SELECT 1 FROM $5") [] = .panic .indexOutOfRange := by kernel_rfl
  dsimp only
  rw [hc]
  rfl

/-- `SELECT 1 FROM t WHERE at = ?` with `(*time.Time)(nil)`. -/
def nilTime : Builder := .frag (.Fa (lit "SELECT 1 FROM t WHERE at = ?") [.nilRecv 5])

/-- Nor does it hold of queries with such a nil pointer among the arguments, which drivers take for NULL. -/
theorem C96_nil_pointer_counterexample (L : GoLib) (e : Err) :
    Returns L nilTime dollar [] (.ok (lit "SELECT 1 FROM t WHERE at = $1", [.nilRecv 5])) ∧
    interpolate L rfc3339 (lit "SELECT 1 FROM t WHERE at = $1") [.nilRecv 5] = .panic .nilDereference ∧
    EndsWith (fun n => countBuilder L n (fun _ _ => .err e) nilTime dollar [])
      (.panic .nilDereference, [(lit "SELECT COUNT(1) FROM (SELECT 1 FROM t WHERE at = $1) list", [.nilRecv 5])]) := by
  have h : Returns L nilTime dollar [] (.ok (lit "SELECT 1 FROM t WHERE at = $1", [.nilRecv 5])) :=
    returns_of_buildQuery (n := 200) (by kernel_rfl) (by simp)
  refine ⟨h, by kernel_rfl, ?_⟩
  obtain ⟨-, N, hN⟩ := h
  refine ⟨N, fun n hn => ?_⟩
  dsimp only
  unfold countBuilder
  rw [hN n hn]
  have hc : count L (fun _ _ => .err e) (lit "SELECT 1 FROM t WHERE at = $1") [.nilRecv 5] = .panic .nilDereference := by kernel_rfl
  dsimp only
  rw [hc]
  rfl

end Sqlf.Props
