import Verif.Proofs.ParseToks
/-!
# Templates that end in a malformed call
-/

namespace Sqlf

open Lex Spec

/-- The parser reaches the tokens `X` after well-formed items, or fails before. -/
theorem parse_hole (L : GoLib) (X : List Token) (tail : Str) (is : List Item) (hw : WFT tail is)
    (hl : ∀ name, is.getLast? ≠ some (.func name)) (p : Str) (k : Nat) (q : Bool)
    (n : Nat) (cur : Token) (acc : List Expr) (hn : (toksX X p is).length < n) :
    (∃ e, parseLoop L n ⟨toksX X p is, cur, k, if q then question else dollar⟩ acc = .error e) ∨
    ∃ n' cur' k' st' acc', X.length < n' ∧
      parseLoop L n ⟨toksX X p is, cur, k, if q then question else dollar⟩ acc =
        parseLoop L n' ⟨X, cur', k', st'⟩ acc' := by
  induction is generalizing p k q n cur acc with
  | nil =>
    obtain ⟨n', cur', h1, h2⟩ := parseLoop_flush (L := L) (cur := cur) (k := k)
      (st := if q then question else dollar) (acc := acc) hn
    exact Or.inr ⟨n', cur', k, _, _, h1, h2⟩
  | cons i is ih =>
    obtain ⟨hi, hne, hf, hfi, hw'⟩ := id hw
    have hl' : ∀ name, is.getLast? ≠ some (.func name) := by
      intro name h
      refine hl name ?_
      rw [List.getLast?_cons, h]; rfl
    cases i with
    | text s => exact ih hw' hl' (p ++ s) k q n cur acc hn
    | esc b => exact ih hw' hl' (p ++ [b, b]) k q n cur acc hn
    | quoted c s =>
      simp only [toksX] at *
      cases n with
      | zero => simp at hn
      | succ n =>
        rw [parseLoop_plain]
        exact ih hw' hl' [] k q n _ _ (by simp at hn; omega)
    | qmark =>
      simp only [toksX] at *
      obtain ⟨n', cur', h1, h2⟩ := parseLoop_flush (L := L) (cur := cur) (k := k)
        (st := if q then question else dollar) (acc := acc) hn
      rw [h2]
      obtain ⟨m, rfl⟩ : ∃ m, n' = m + 1 := ⟨n' - 1, by omega⟩
      have h3 : parseLoop L (m + 1) ⟨tRef [0x3F] :: toksX X [] is, cur', k,
          if q then question else dollar⟩ (acc ++ flushE p) =
          parseLoop L m ⟨toksX X [] is, tRef [0x3F], k + 1, question⟩
            (acc ++ flushE p ++ [.bindVar question (k + 1 : Nat)]) := by
        rw [parseLoop]
        simp only [PState.next]
        rw [bindVar_qmark]
        rfl
      rw [h3]
      exact ih hw' hl' [] (k + 1) true m _ _ (by simp at h1; omega)
    | dollarN d =>
      simp only [toksX] at *
      obtain ⟨n', cur', h1, h2⟩ := parseLoop_flush (L := L) (cur := cur) (k := k)
        (st := if q then question else dollar) (acc := acc) hn
      rw [h2]
      obtain ⟨m, rfl⟩ : ∃ m, n' = m + 1 := ⟨n' - 1, by omega⟩
      cases q with
      | true =>
        left
        refine ⟨.mixedBindvarStyles, ?_⟩
        simp only [if_true]
        rw [parseLoop]
        simp only [PState.next]
        rw [bindVar_dollar_mixed]
        rfl
      | false =>
        have h3 : parseLoop L (m + 1) ⟨tRef [0x24] :: tNum (natDigits d) :: toksX X [] is, cur', k,
            dollar⟩ (acc ++ flushE p) =
            parseLoop L m ⟨toksX X [] is, tNum (natDigits d), k + 1, dollar⟩
              (acc ++ flushE p ++ [.bindVar dollar (d : Nat)]) := by
          rw [parseLoop]
          simp only [PState.next]
          rw [bindVar_dollar hi.2]
          rfl
        simp only [Bool.false_eq_true, if_false]
        rw [h3]
        exact ih hw' hl' [] (k + 1) false m _ _ (by simp at h1; omega)
    | callN name d =>
      simp only [toksX] at *
      obtain ⟨n', cur', h1, h2⟩ := parseLoop_flush (L := L) (cur := cur) (k := k)
        (st := if q then question else dollar) (acc := acc) hn
      rw [h2]
      obtain ⟨m, rfl⟩ : ∃ m, n' = m + 1 := ⟨n' - 1, by omega⟩
      have h3 : parseLoop L (m + 1) ⟨tHash :: tName name :: tNum (natDigits d) :: toksX X [] is, cur', k,
          if q then question else dollar⟩ (acc ++ flushE p) =
          parseLoop L m ⟨toksX X [] is, tNum (natDigits d), k, if q then question else dollar⟩
            (acc ++ flushE p ++ [.call name [.num (.nat d)]]) := by
        rw [parseLoop]
        simp only [PState.next, funcExpr, tName, tNum, tHash]
        simp only [ne_eq, not_true_eq_false, if_false]
        rw [parseFloat_digits L hi.2]
      rw [h3]
      exact ih hw' hl' [] k q m _ _ (by simp at h1; omega)
    | call name args =>
      simp only [toksX] at *
      obtain ⟨n', cur', h1, h2⟩ := parseLoop_flush (L := L) (cur := cur) (k := k)
        (st := if q then question else dollar) (acc := acc) hn
      rw [h2]
      obtain ⟨m, rfl⟩ : ∃ m, n' = m + 1 := ⟨n' - 1, by omega⟩
      have h3 : parseLoop L (m + 1) ⟨tHash :: tName name :: tLparen :: (argToks args ++ toksX X [] is),
          cur', k, if q then question else dollar⟩ (acc ++ flushE p) =
          parseLoop L m ⟨toksX X [] is, tRparen, k, if q then question else dollar⟩
            (acc ++ flushE p ++ [.call name (args.map (·.2.value))]) := by
        rw [parseLoop]
        simp only [PState.next, funcExpr, tName, tLparen, tHash]
        simp only [ne_eq, not_true_eq_false, if_false]
        rw [argsLoop_args L args hi.2 _ _ _ _ _ _
          (by have := argToks_length args; simp only [List.length_append]; omega)]
        simp
      rw [h3]
      exact ih hw' hl' [] k q m _ _ (by simp at h1; omega)
    | func name =>
      simp only [toksX] at *
      obtain ⟨n', cur', h1, h2⟩ := parseLoop_flush (L := L) (cur := cur) (k := k)
        (st := if q then question else dollar) (acc := acc) hn
      rw [h2]
      obtain ⟨m, rfl⟩ : ∃ m, n' = m + 1 := ⟨n' - 1, by omega⟩
      have haf : ∃ t ts, toksX X [] is = tPlain t :: ts := by
        cases is with
        | nil => exact absurd rfl (hl name)
        | cons i is =>
          cases i with
          | text s =>
            have hs : s ≠ [] := by
              intro h; subst h; exact hw'.2.1 rfl
            exact toks_plain_head _ _ (by simpa using hs) is
          | esc b => exact toks_plain_head _ _ (by simp) is
          | quoted q s => exact ⟨_, _, rfl⟩
          | _ => exact hfi.elim
      obtain ⟨t, ts, he⟩ := haf
      rw [he] at h1
      have h3 : parseLoop L (m + 1) ⟨tHash :: tName name :: tPlain t :: ts, cur', k,
          if q then question else dollar⟩ (acc ++ flushE p) =
          parseLoop L (m + 1) ⟨tPlain t :: ts, cur', k, if q then question else dollar⟩
            (acc ++ flushE p ++ [.func name]) := by
        rw [parseLoop_plain, parseLoop]
        simp only [PState.next, funcExpr, tName, tHash, tPlain]
        simp
      rw [he, h3, ← he]
      exact ih hw' hl' [] k q (m + 1) _ _ (by rw [he]; simp at h1 ⊢; omega)

/-- Without a closing parenthesis no argument list is complete. -/
theorem argsLoop_no_rparen (L : GoLib) (n : Nat) (p : PState) (acc : List CallArg)
    (h : ∀ t ∈ p.toks, t.typ ≠ .rparen) (hc : p.cur.typ ≠ .rparen) :
    ∃ e, argsLoop L n p acc = .error e := by
  induction n generalizing p acc with
  | zero => exact ⟨_, rfl⟩
  | succ n ih =>
    have key : ∀ p : PState, (∀ t ∈ p.toks, t.typ ≠ .rparen) → p.cur.typ ≠ .rparen →
        (∀ t ∈ p.next.toks, t.typ ≠ .rparen) ∧ p.next.cur.typ ≠ .rparen := by
      intro p h hc
      unfold PState.next
      split
      · exact ⟨h, hc⟩
      · rename_i t ts he
        exact ⟨fun x hx => h x (by rw [he]; simp [hx]), h t (by rw [he]; simp)⟩
    have h1 := key p h hc
    have h2 := key p.next h1.1 h1.2
    unfold argsLoop
    dsimp only
    split
    · exact ⟨_, by rw [if_pos h1.2]⟩
    · split
      · exact ⟨_, rfl⟩
      · split
        · exact ⟨_, rfl⟩
        · split
          · exact ih _ _ h2.1 h2.2
          · exact ⟨_, by rw [if_pos h2.2]⟩

/-- A call without closing parenthesis fails. -/
theorem parseLoop_no_rparen (L : GoLib) (n : Nat) (name : Str) (Y : List Token) (cur : Token)
    (k : Nat) (st : Style) (acc : List Expr) (hY : ∀ t ∈ Y, t.typ ≠ .rparen) :
    ∃ e, parseLoop L (n + 1) ⟨tHash :: tName name :: tLparen :: Y, cur, k, st⟩ acc = .error e := by
  rw [parseLoop]
  simp only [PState.next, funcExpr, tName, tLparen, tHash]
  simp only [ne_eq, not_true_eq_false, if_false]
  obtain ⟨e, he⟩ := argsLoop_no_rparen L (Y.length + 2)
    ⟨Y, ⟨.lparen, .string, false, [0x28]⟩, k, st⟩ [] hY (by simp)
  rw [he]
  exact ⟨e, rfl⟩

/-- Items, then a call whose tokens contain no closing parenthesis. -/
theorem parse_unclosed (L : GoLib) (is : List Item) (name t : Str) (Y : List Token)
    (hn : isName name) (hw : WFT (0x23 :: (name ++ 0x28 :: t)) is)
    (hl : ∀ name, is.getLast? ≠ some (.func name))
    (hY : Scans L .funcArgs ⟨[0x28], t, false⟩ Y) (hr : ∀ x ∈ Y, x.typ ≠ .rparen) :
    ∃ e, parse L (render is ++ 0x23 :: (name ++ 0x28 :: t)) = .error e := by
  have h := scanAll_renderX L is (0x23 :: (name ++ 0x28 :: t))
    (tHash :: tName name :: tLparen :: Y) hw (asciiHead_cons (by decide))
    (fun p => by
      have : (render is ++ 0x23 :: (name ++ 0x28 :: t)).isEmpty = false := by simp
      rw [this]
      exact PScans.func plainInf_hash (scans_hash (scans_lparen hn hY)))
  unfold parse
  rw [h]
  unfold parseTokens
  rcases parse_hole L (tHash :: tName name :: tLparen :: Y) _ is hw hl [] 0 false
      ((toksX (tHash :: tName name :: tLparen :: Y) [] is).length + 1) ⟨.eof, .string, false, []⟩ []
      (by omega) with ⟨e, he⟩ | ⟨n', cur', k', st', acc', h1, h2⟩
  · exact ⟨e, he⟩
  · obtain ⟨m, rfl⟩ : ∃ m, n' = m + 1 := ⟨n' - 1, by omega⟩
    obtain ⟨e, he⟩ := parseLoop_no_rparen L m name Y cur' k' st' acc' hr
    exact ⟨e, h2.trans he⟩

/-! ## Scanning an argument list without `)` -/

/-- Bytes of the rest only get fewer. -/
def SubRest (l l' : Lex) : Prop := ∀ b ∈ l'.rest, b ∈ l.rest

theorem SubRest.refl (l : Lex) : SubRest l l := fun _ h => h
theorem SubRest.trans {a b c : Lex} (h : SubRest a b) (h' : SubRest b c) : SubRest a c :=
  fun x hx => h x (h' x hx)

theorem subRest_next (l : Lex) : SubRest l l.next := by
  obtain ⟨tok, rest, e⟩ := l
  cases rest with
  | nil => exact fun _ h => h
  | cons b t =>
    intro x hx
    exact List.mem_of_mem_drop hx

theorem subRest_argLoop (n : Nat) (l : Lex) : SubRest l (argLoop n l) := by
  induction n generalizing l with
  | zero => exact SubRest.refl l
  | succ n ih =>
    unfold argLoop
    split
    · exact (subRest_next l).trans (ih _)
    · exact SubRest.refl l

theorem subRest_skip (n : Nat) (l : Lex) : SubRest l (skipWhitespaceAux n l) := by
  induction n generalizing l with
  | zero => exact SubRest.refl l
  | succ n ih =>
    unfold skipWhitespaceAux
    split
    · exact SubRest.refl l
    · dsimp only
      split
      · exact subRest_next l
      · exact (subRest_next l).trans (ih _)

theorem subRest_quoted (q : Rune) (n : Nat) (l : Lex) : SubRest l (quotedLoop q n l).1 := by
  induction n generalizing l with
  | zero => exact SubRest.refl l
  | succ n ih =>
    unfold quotedLoop
    dsimp only
    split
    · exact SubRest.refl l
    · split
      · split
        · exact ((subRest_next l).trans (subRest_next _)).trans (ih _)
        · exact subRest_next l
      · exact (subRest_next l).trans (ih _)

/-- An unclosed quote is left at the end of the input. -/
theorem quotedInf_unclosed (q : Rune) (n : Nat) (l : Lex) (h : l.measure < n)
    (h' : (quotedLoop q n l).2 = false) : (quotedLoop q n l).1.rune = eofRune := by
  induction n generalizing l with
  | zero => omega
  | succ n ih =>
    unfold quotedLoop at h' ⊢
    dsimp only at h' ⊢
    by_cases h0 : l.rune = eofRune
    · simp only [h0, if_true]
    · simp only [h0, if_false] at h' ⊢
      have h1 := measure_next_lt l h0
      have h2 := measure_next_le l.next
      by_cases hq : l.rune = q
      · simp only [hq, if_true] at h' ⊢
        by_cases h3 : q = rSQuote ∧ l.peek = rSQuote
        · rw [if_pos h3] at h' ⊢
          exact ih _ (by omega) h'
        · rw [if_neg h3] at h'
          exact absurd h' (by simp)
      · simp only [hq, if_false] at h' ⊢
        exact ih _ (by omega) h'

/-- At the end of the input only the end token is left. -/
theorem scanRun_plain_eof (L : GoLib) (n : Nat) (l : Lex) (ts : List Token)
    (h : l.rune = eofRune) (hr : scanRun L n .plain l = some ts) : ts = [tEof] := by
  cases n with
  | zero => simp [scanRun] at hr
  | succ n =>
    have h1 : plainInf l.startToken = (l.startToken, .eof) := by
      rw [plainInf_eq]
      rw [if_pos (show l.startToken.rune = eofRune from h)]
    have h2 : scanStep L .plain l = (l.startToken, [tEof], none) := by
      show scanPlain l = _
      rw [scanPlain_eq]
      unfold plainCont
      rw [h1]
      rfl
    simp only [scanRun, h2] at hr
    injection hr with hr
    exact hr.symm

theorem scanRun_no_rparen (L : GoLib) (n : Nat) (st : Scan) (l : Lex) (ts : List Token)
    (hst : st = .funcArgs ∨ st = .funcArgQuoted)
    (hb : 0x29 ∉ l.rest) (hr : scanRun L n st l = some ts) : ∀ t ∈ ts, t.typ ≠ .rparen := by
  induction n generalizing st l ts with
  | zero => simp [scanRun] at hr
  | succ n ih =>
    have runeNe : ∀ l : Lex, 0x29 ∉ l.rest → l.rune ≠ rRparen := by
      intro l hl
      obtain ⟨tok, rest, e⟩ := l
      rw [show rRparen = (0x29 : UInt8).toNat from rfl, Ne, rune_eq_iff_head (by decide) (by decide)]
      intro h
      exact hl (List.mem_of_mem_head? h)
    -- the continuation in an argument state
    have cont : ∀ (l' : Lex) (tk : List Token) (st' : Scan), SubRest l l' →
        (st' = .funcArgs ∨ st' = .funcArgQuoted) → (∀ t ∈ tk, t.typ ≠ .rparen) →
        (scanRun L n st' l').map (tk ++ ·) = some ts → ∀ t ∈ ts, t.typ ≠ .rparen := by
      intro l' tk st' hs hst' htk h
      cases hc : scanRun L n st' l' with
      | none => rw [hc] at h; simp at h
      | some ts' =>
        rw [hc] at h
        simp only [Option.map_some, Option.some.injEq] at h
        have := ih st' l' ts' hst' (fun hx => hb (hs _ hx)) hc
        intro t ht
        rw [← h] at ht
        rcases List.mem_append.mp ht with h1 | h1
        · exact htk t h1
        · exact this t h1
    have contEnd : ∀ (l' : Lex) (tk : List Token), l'.rune = eofRune →
        (∀ t ∈ tk, t.typ ≠ .rparen) →
        (scanRun L n .plain l').map (tk ++ ·) = some ts → ∀ t ∈ ts, t.typ ≠ .rparen := by
      intro l' tk hs htk h
      cases hc : scanRun L n .plain l' with
      | none => rw [hc] at h; simp at h
      | some ts' =>
        rw [hc] at h
        simp only [Option.map_some, Option.some.injEq] at h
        have := scanRun_plain_eof L n l' ts' hs hc
        subst this
        intro t ht
        rw [← h] at ht
        rcases List.mem_append.mp ht with h1 | h1
        · exact htk t h1
        · simp at h1; subst h1; simp [tEof]
    rcases hst with rfl | rfl
    · -- funcArgs
      have hsk : SubRest l l.skipWhitespace := subRest_skip _ _
      have hsk' : SubRest l l.skipWhitespace.startToken := hsk
      have hne := runeNe l.skipWhitespace.startToken (fun hx => hb (hsk _ hx))
      simp only [scanRun] at hr
      rw [show scanStep L .funcArgs = scanFuncArgs L from rfl] at hr
      unfold scanFuncArgs at hr
      dsimp only at hr
      by_cases h1 : l.skipWhitespace.startToken.rune = eofRune
      · rw [if_pos h1] at hr
        exact contEnd _ [] h1 (by simp) hr
      · rw [if_neg h1] at hr
        by_cases h2 : l.skipWhitespace.startToken.rune = rComma
        · rw [if_pos h2] at hr
          refine cont _ _ .funcArgs (hsk'.trans (subRest_next _)) (Or.inl rfl) ?_ hr
          intro t ht; simp at ht; subst ht; simp [emit]
        · rw [if_neg h2, if_neg hne] at hr
          by_cases h3 : l.skipWhitespace.startToken.rune = rSQuote
          · rw [if_pos h3] at hr
            exact cont _ [] .funcArgQuoted hsk' (Or.inr rfl) (by simp) hr
          · rw [if_neg h3] at hr
            have hs2 := hsk'.trans (subRest_argLoop l.skipWhitespace.startToken.fuel _)
            generalize argLoop l.skipWhitespace.startToken.fuel l.skipWhitespace.startToken = l2
              at hr hs2
            by_cases h4 : l2.advanced = true
            · rw [if_pos h4] at hr
              by_cases h5 : l2.tok = lit "true" ∨ l2.tok = lit "false"
              · rw [if_pos h5] at hr
                refine cont _ _ .funcArgs hs2 (Or.inl rfl) ?_ hr
                intro t ht; simp at ht; subst ht; simp [emit]
              · rw [if_neg h5] at hr
                by_cases h6 : l2.tok = lit "null" ∨ l2.tok = lit "nil"
                · rw [if_pos h6] at hr
                  refine cont _ _ .funcArgs hs2 (Or.inl rfl) ?_ hr
                  intro t ht; simp at ht; subst ht; simp [emit]
                · rw [if_neg h6] at hr
                  by_cases h7 : (parseFloat L l2.tok).isSome = true
                  · rw [if_pos h7] at hr
                    refine cont _ _ .funcArgs hs2 (Or.inl rfl) ?_ hr
                    intro t ht; simp at ht; subst ht; simp [emit]
                  · rw [if_neg h7] at hr
                    refine cont _ _ .funcArgs hs2 (Or.inl rfl) ?_ hr
                    intro t ht; simp at ht; subst ht; simp [emit]
            · rw [if_neg h4] at hr
              exact cont _ [] .funcArgs hs2 (Or.inl rfl) (by simp) hr
    · -- funcArgQuoted
      simp only [scanRun] at hr
      rw [show scanStep L .funcArgQuoted = scanFuncArgQuoted from rfl] at hr
      unfold scanFuncArgQuoted at hr
      dsimp only at hr
      have hs := (subRest_next l).trans (subRest_quoted l.rune l.next.fuel l.next)
      have hu := quotedInf_unclosed l.rune l.next.fuel l.next (measure_le_fuel _)
      generalize quotedLoop l.rune l.next.fuel l.next = r at hr hs hu
      obtain ⟨l2, c⟩ := r
      dsimp only at hr hs hu
      cases c with
      | true =>
        rw [if_pos rfl] at hr
        refine cont _ _ .funcArgs hs (Or.inl rfl) ?_ hr
        intro t ht; simp at ht; subst ht; simp [emit]
      | false =>
        rw [if_neg (by simp)] at hr
        refine contEnd _ _ (hu rfl) ?_ hr
        intro t ht; simp at ht; subst ht; simp [emit]

end Sqlf
