import Verif.Proofs.Malformed
/-!
# Calls that are not closed before the end of the template
-/

namespace Sqlf

open Lex Spec

/-- A single-quoted region that is not closed is scanned up to the end of the input. -/
theorem quotedInf_open (s tok : Str) (e : Bool) (hs : 0 ∉ s) :
    quotedInf rSQuote ⟨tok, escapeQuotes s, e⟩ = (⟨tok ++ escapeQuotes s, [], true⟩, false) := by
  have hq : rSQuote = (0x27 : UInt8).toNat := rfl
  have hend : ∀ (tok : Str) (e : Bool), quotedInf rSQuote ⟨tok, [], e⟩ = (⟨tok, [], true⟩, false) := by
    intro tok e
    cases e
    · rw [quotedInf_eq, if_neg (by show runeError ≠ eofRune; decide),
        if_neg (by show runeError ≠ rSQuote; decide)]
      rw [show (Lex.mk tok [] false).next = ⟨tok, [], true⟩ from rfl, quotedInf_eq, if_pos (by rfl)]
    · rw [quotedInf_eq, if_pos (by rfl)]
  induction hn : s.length using Nat.strongRecOn generalizing s tok with
  | _ n ih =>
    subst hn
    rcases split_quote s with h | ⟨a, b, h1, h2⟩
    · have := quotedInf_text 0x27 s [] tok e (by decide)
        (fun b hb => ⟨fun hh => h (hh ▸ hb), fun hh => hs (hh ▸ hb)⟩) (by simp [AsciiHead])
      rw [escapeQuotes_noquote h, hq]
      rw [List.append_nil] at this
      rw [this, ← hq, hend]
    · subst h1
      have hs' : 0 ∉ a ∧ 0 ∉ b := by
        simp only [List.mem_append, List.mem_cons, not_or] at hs; exact ⟨hs.1, hs.2.2⟩
      have he : escapeQuotes (a ++ 0x27 :: b) = a ++ 0x27 :: 0x27 :: escapeQuotes b := by
        rw [escapeQuotes_append, escapeQuotes_noquote h2]
        simp [escapeQuotes]
      rw [he, hq, quotedInf_text 0x27 a _ _ _ (by decide)
        (fun b hb => ⟨fun hh => h2 (hh ▸ hb), fun hh => hs'.1 (hh ▸ hb)⟩)
        (by exact asciiHead_cons (by decide))]
      rw [quotedInf_eq]
      rw [if_neg (by
          rw [show eofRune = (0 : UInt8).toNat from rfl, rune_eq_iff (by decide)]; decide),
        if_pos (by rw [rune_eq_iff (by decide)]),
        if_pos ⟨rfl, by rw [hq, peek_eq_iff (by decide) (by decide) (by decide)]; rfl⟩,
        next_cons_ascii (by decide), next_cons_ascii (by decide), ← hq,
        ih b.length (by simp; omega) b _ hs'.2 rfl]
      simp

/-- The start of a string literal. -/
theorem scans_quote_start {L : GoLib} {k : Nat} {t tok : Str} {e : Bool} {ts : List Token}
    (h : Scans L .funcArgQuoted ⟨[], 0x27 :: t, e⟩ ts) :
    Scans L .funcArgs ⟨tok, List.replicate k 0x20 ++ 0x27 :: t, e⟩ ts := by
  refine Scans.step (toks := []) (l' := ⟨[], 0x27 :: t, e⟩) (st' := .funcArgQuoted) ?_ h
  rw [show scanStep L .funcArgs = scanFuncArgs L from rfl,
    funcArgs_start k 0x27 t tok e (by decide) (by decide) (by decide)]
  unfold scanFuncArgs
  dsimp only
  rw [skip_none (by decide) (by decide) (by decide)]
  have hru : (Lex.mk [] (0x27 :: t) e).startToken.rune = 0x27 := rune_cons_ascii (by decide)
  rw [hru, if_neg (by decide), if_neg (by decide), if_neg (by decide), if_pos (by decide)]
  rfl

theorem scans_str {L : GoLib} {k : Nat} {s u tok : Str} {e : Bool} {ts : List Token} (hs : 0 ∉ s)
    (hu : u.head? ≠ some 0x27) (h : ∀ tok, Scans L .funcArgs ⟨tok, u, e⟩ ts) :
    Scans L .funcArgs ⟨tok, List.replicate k 0x20 ++ 0x27 :: (escapeQuotes s ++ 0x27 :: u), e⟩
      (litTok (.str s) :: ts) := by
  apply scans_quote_start
  refine Scans.step (toks := [litTok (.str s)]) (l' := ⟨renderLit (.str s), u, e⟩)
    (st' := .funcArgs) ?_ (h _)
  rw [show scanStep L .funcArgQuoted = scanFuncArgQuoted from rfl]
  have := quotedInf_escaped s u [0x27] e hs hu
  unfold quotedInf at this
  unfold scanFuncArgQuoted
  dsimp only
  rw [rune_cons_ascii (by decide), next_cons_ascii (by decide)]
  simp only [List.nil_append]
  rw [show (0x27 : UInt8).toNat = rSQuote from rfl, this]
  simp [emit, litTok, renderLit]

theorem scans_openString {L : GoLib} {k : Nat} {s tok : Str} {e : Bool} (hs : 0 ∉ s) :
    Scans L .funcArgs ⟨tok, List.replicate k 0x20 ++ 0x27 :: escapeQuotes s, e⟩
      [⟨.literal, .string, true, 0x27 :: escapeQuotes s⟩, tEof] := by
  apply scans_quote_start
  refine Scans.step (toks := [⟨.literal, .string, true, 0x27 :: escapeQuotes s⟩])
    (l' := ⟨0x27 :: escapeQuotes s, [], true⟩) (st' := .plain) ?_ ?_
  · rw [show scanStep L .funcArgQuoted = scanFuncArgQuoted from rfl]
    have := quotedInf_open s [0x27] e hs
    unfold quotedInf at this
    unfold scanFuncArgQuoted
    dsimp only
    rw [rune_cons_ascii (by decide), next_cons_ascii (by decide)]
    simp only [List.nil_append]
    rw [show (0x27 : UInt8).toNat = rSQuote from rfl, this]
    simp [emit]
  · exact ⟨1, rfl⟩

theorem skip_tok (n : Nat) (tok tok' u : Str) (e : Bool) :
    (skipWhitespaceAux n ⟨tok, u, e⟩).startToken = (skipWhitespaceAux n ⟨tok', u, e⟩).startToken := by
  induction n generalizing tok tok' u e with
  | zero => rfl
  | succ n ih =>
    unfold skipWhitespaceAux
    have hr : (Lex.mk tok u e).rune = (Lex.mk tok' u e).rune := rfl
    dsimp only
    rw [hr]
    cases u with
    | nil =>
      have h1 : (Lex.mk tok [] e).next = ⟨tok, [], true⟩ := rfl
      have h2 : (Lex.mk tok' [] e).next = ⟨tok', [], true⟩ := rfl
      rw [h1, h2, show (Lex.mk tok [] true).rune = (Lex.mk tok' [] true).rune from rfl]
      split
      · rfl
      · split
        · rfl
        · exact ih _ _ _ _
    | cons b t =>
      obtain ⟨c, r, h1⟩ : ∃ c r, ∀ x, (Lex.mk x (b :: t) e).next = ⟨x ++ c, r, e⟩ :=
        ⟨(b :: t).take (decodeRune (b :: t)).2, (b :: t).drop (decodeRune (b :: t)).2, fun x => rfl⟩
      rw [h1, h1, show (Lex.mk (tok ++ c) r e).rune = (Lex.mk (tok' ++ c) r e).rune from rfl]
      split
      · rfl
      · split
        · rfl
        · exact ih _ _ _ _

theorem funcArgs_tok (L : GoLib) (tok u : Str) (e : Bool) :
    scanFuncArgs L ⟨tok, u, e⟩ = scanFuncArgs L ⟨[], u, e⟩ := by
  unfold scanFuncArgs
  unfold skipWhitespace
  rw [skip_tok _ tok [] u e]

theorem openArgs_scans {t : Str} (h : OpenArgs t) (L : GoLib) (tok : Str) (e : Bool) :
    ∃ Y, Scans L .funcArgs ⟨tok, t, e⟩ Y ∧ ∀ x ∈ Y, x.typ ≠ .rparen := by
  induction h generalizing tok with
  | @noParen u hu =>
    have := scanRun_isSome L (3 * (Lex.mk tok u e).measure + 3) .funcArgs ⟨tok, u, e⟩ trivial
      (by simp [Scan.rank])
    obtain ⟨Y, hY⟩ := Option.isSome_iff_exists.mp this
    exact ⟨Y, ⟨_, hY⟩, scanRun_no_rparen L _ .funcArgs _ _ (Or.inl rfl) hu hY⟩
  | @openString k s hs =>
    refine ⟨[⟨.literal, .string, true, 0x27 :: escapeQuotes s⟩, tEof], ?_, ?_⟩
    · rw [List.append_assoc]
      exact scans_openString hs
    · intro x hx
      simp at hx
      rcases hx with rfl | rfl <;> simp [tEof]
  | @afterString k s u hs hu _ ih =>
    obtain ⟨Y, h1, h2⟩ := ih []
    have key : ∀ tok, Scans L .funcArgs ⟨tok, u, e⟩ Y := by
      intro tok
      obtain ⟨n, hn⟩ := h1
      refine ⟨n, ?_⟩
      cases n with
      | zero => simp [scanRun] at hn
      | succ n =>
        rw [← hn]
        unfold scanRun
        rw [show scanStep L .funcArgs = scanFuncArgs L from rfl]
        have : scanFuncArgs L ⟨tok, u, e⟩ = scanFuncArgs L ⟨[], u, e⟩ := funcArgs_tok L tok u e
        rw [this]
    refine ⟨litTok (.str s) :: Y, ?_, ?_⟩
    · have := scans_str (L := L) (k := k) (tok := tok) hs hu key
      simpa using this
    · intro x hx
      simp only [List.mem_cons] at hx
      rcases hx with rfl | hx
      · simp [(litTok_typ _).1]
      · exact h2 x hx
  | @afterComma u _ ih =>
    obtain ⟨Y, h1, h2⟩ := ih [0x2C]
    refine ⟨_, scans_comma h1, ?_⟩
    intro x hx
    simp only [List.mem_cons] at hx
    rcases hx with rfl | hx
    · simp [tComma]
    · exact h2 x hx
  | @afterArg a u ha _ ih =>
    obtain ⟨Y, h1, h2⟩ := ih [0x2C]
    refine ⟨litTok a.2 :: tComma :: Y, ?_, ?_⟩
    · rw [List.append_assoc]
      exact scans_lit ha (Or.inl rfl) (fun tok => scans_comma h1)
    · intro x hx
      simp only [List.mem_cons] at hx
      rcases hx with rfl | rfl | hx
      · simp [(litTok_typ _).1]
      · simp [tComma]
      · exact h2 x hx

theorem follows_head {i : Item} {t t' : Str} (h : t.head? = t'.head?) (hf : Follows i t) :
    Follows i t' := by
  cases i <;> simp only [Follows, h] at * <;> exact hf

theorem head_append_congr (a : Str) {t t' : Str} (h : t.head? = t'.head?) :
    (a ++ t).head? = (a ++ t').head? := by
  cases a <;> simp [h]

theorem wft_of_call {is : List Item} {name t : Str} (h : WF (is ++ [.call name []])) :
    WFT (0x23 :: (name ++ 0x28 :: t)) is ∧ ∀ name, is.getLast? ≠ some (.func name) := by
  induction is with
  | nil => exact ⟨trivial, by simp⟩
  | cons i is ih =>
    obtain ⟨h1, h2, h3, h4, h5⟩ := h
    obtain ⟨h6, h7⟩ := ih h5
    refine ⟨⟨h1, h2, ?_, ?_, h6⟩, ?_⟩
    · rw [show render (is.append [Item.call name []]) =
        render is ++ renderItem (.call name []) from by
          show render (is ++ _) = _
          simp [render]] at h3
      exact follows_head (head_append_congr (t := renderItem (.call name [])) _ rfl) h3
    · cases is with
      | nil => cases i <;> trivial
      | cons j is => cases i <;> cases j <;> exact h4
    · intro nm hn
      cases is with
      | nil =>
        simp at hn
        subst hn
        exact h4
      | cons j is => exact h7 nm (by simpa using hn)

end Sqlf
