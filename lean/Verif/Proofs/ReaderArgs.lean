import Verif.Proofs.ReaderLoops
import Verif.Proofs.OpenArgs
/-!
# Argument lists of calls on arbitrary text
-/

namespace Sqlf

open Lex Spec

theorem scans_some (L : GoLib) (st : Scan) (l : Lex) (hp : st.Pre l) : ∃ ts, Scans L st l ts := by
  have := scanRun_isSome L (3 * l.measure + st.rank + 1) st l hp (by omega)
  obtain ⟨ts, h⟩ := Option.isSome_iff_exists.mp this
  exact ⟨ts, _, h⟩

/-- The token of an unquoted argument. -/
def wordTok (L : GoLib) (w : Str) : Token :=
  if w = lit "true" ∨ w = lit "false" then ⟨.literal, .bool, false, w⟩
  else if w = lit "null" ∨ w = lit "nil" then ⟨.literal, .nil, false, w⟩
  else if (parseFloat L w).isSome then ⟨.literal, .number, false, w⟩
  else ⟨.name, .string, true, w⟩

theorem scanFuncArgs_trim (L : GoLib) (tok s : Str) (e : Bool) :
    scanFuncArgs L ⟨tok, s, e⟩ =
      (let l : Lex := ⟨[], trimLeft s, e⟩
       let r := l.rune
       if r = eofRune then (l, [], some .plain)
       else if r = rComma then (l.next, [l.next.emit .comma .string false], some .funcArgs)
       else if r = rRparen then (l.next, [l.next.emit .rparen .string false], some .plain)
       else if r = rSQuote then (l, [], some .funcArgQuoted)
       else if (argInf l).advanced then
          (argInf l, [wordTok L (argInf l).tok], some .funcArgs)
        else (argInf l, [], some .funcArgs)) := by
  unfold scanFuncArgs
  rw [skip_trim]
  dsimp only
  generalize hl : argInf ⟨[], trimLeft s, e⟩ = l
  unfold argInf at hl
  rw [hl]
  split
  · rfl
  · split
    · rfl
    · split
      · rfl
      · split
        · rfl
        · split
          · unfold wordTok
            split
            · rfl
            · split
              · rfl
              · split <;> rfl
          · rfl

/-- At the end of the text. -/
theorem args_end {L : GoLib} {tok s : Str} {e : Bool} (h : trimLeft s = [] ∨ (trimLeft s).head? = some 0) :
    Scans L .funcArgs ⟨tok, s, e⟩ [tEof] := by
  have h2 : ∀ t, (t = [] ∨ t.head? = some 0) → ∀ tok, PScans L ⟨[], t, e⟩ [tEof] ∧ Scans L .plain ⟨tok, t, e⟩ [tEof] := by
    intro t ht tok
    have : PScans L ⟨[], t, e⟩ [tEof] := by
      cases t with
      | nil => simpa [flush] using pscans_end (L := L) (p := []) (e := e)
      | cons b t =>
        have : b = 0 := by simpa using ht
        subst this
        simpa [flush] using pscans_nul (L := L) (p := []) (t := t) (e := e)
    exact ⟨this, PScans.scans (l := ⟨tok, t, e⟩) this⟩
  have h3 := scanFuncArgs_trim L tok s e
  rcases hs : trimLeft s with _ | ⟨b, t⟩
  · rw [hs] at h3 h
    cases e with
    | true =>
      refine Scans.step (toks := []) (l' := ⟨[], [], true⟩) (st' := .plain) ?_ ((h2 _ (.inl rfl) []).2)
      show scanFuncArgs L _ = _
      rw [h3]
      rfl
    | false =>
      refine Scans.step (toks := []) (l' := ⟨[], [], true⟩) (st' := .funcArgs) (ts := [tEof]) ?_ ?_
      · show scanFuncArgs L _ = _
        rw [h3]
        rfl
      · refine Scans.step (toks := []) (l' := ⟨[], [], true⟩) (st' := .plain) (ts := [tEof]) rfl ?_
        exact ⟨1, rfl⟩
  · rw [hs] at h3 h
    have hb : b = 0 := by simpa using h
    subst hb
    refine Scans.step (toks := []) (l' := ⟨[], 0 :: t, e⟩) (st' := .plain) ?_ ((h2 _ (.inr rfl) []).2)
    show scanFuncArgs L _ = _
    rw [h3]
    dsimp only
    rw [rune_cons_ascii (by decide), if_pos (by decide)]

theorem args_comma {L : GoLib} {tok s r : Str} {e : Bool} {ts : List Token} (hs : trimLeft s = 0x2C :: r)
    (h : Scans L .funcArgs ⟨[0x2C], r, e⟩ ts) : Scans L .funcArgs ⟨tok, s, e⟩ (tComma :: ts) := by
  refine Scans.step (l' := ⟨[0x2C], r, e⟩) (toks := [tComma]) (st' := .funcArgs) ?_ h
  show scanFuncArgs L _ = _
  rw [scanFuncArgs_trim, hs]
  dsimp only
  rw [rune_cons_ascii (by decide), next_cons_ascii (by decide), if_neg (by decide), if_pos (by decide)]
  rfl

theorem args_rparen {L : GoLib} {tok s r : Str} {e : Bool} {ts : List Token} (hs : trimLeft s = 0x29 :: r)
    (h : PScans L ⟨[], r, e⟩ ts) : Scans L .funcArgs ⟨tok, s, e⟩ (tRparen :: ts) := by
  refine Scans.step (l' := ⟨[0x29], r, e⟩) (toks := [tRparen]) (st' := .plain) ?_ (PScans.scans h)
  show scanFuncArgs L _ = _
  rw [scanFuncArgs_trim, hs]
  dsimp only
  rw [rune_cons_ascii (by decide), next_cons_ascii (by decide), if_neg (by decide), if_neg (by decide),
    if_pos (by decide)]
  rfl

theorem args_quote {L : GoLib} {tok s r : Str} {e : Bool} {ts : List Token} (hs : trimLeft s = 0x27 :: r)
    (h : Scans L .funcArgQuoted ⟨[], 0x27 :: r, e⟩ ts) : Scans L .funcArgs ⟨tok, s, e⟩ ts := by
  refine Scans.step (l' := ⟨[], 0x27 :: r, e⟩) (toks := []) (st' := .funcArgQuoted) ?_ h
  show scanFuncArgs L _ = _
  rw [scanFuncArgs_trim, hs]
  dsimp only
  rw [rune_cons_ascii (by decide), if_neg (by decide), if_neg (by decide), if_neg (by decide), if_pos (by decide)]

theorem quoted_arg_eq (r : Str) (e : Bool) : scanFuncArgQuoted ⟨[], 0x27 :: r, e⟩ =
    (let p := quotedInf (0x27 : UInt8).toNat ⟨[0x27], r, e⟩
     if p.2 then (p.1, [p.1.emit .literal .string false], some .funcArgs)
     else (p.1, [p.1.emit .literal .string true], some .plain)) := by
  unfold scanFuncArgQuoted quotedInf
  dsimp only
  rw [rune_cons_ascii (by decide), next_cons_ascii (by decide)]
  rfl

theorem args_string {L : GoLib} {tok s r x u : Str} {e : Bool} {ts : List Token} (hs : trimLeft s = 0x27 :: r)
    (hr : region 0x27 r = some (x, u)) (h : Scans L .funcArgs ⟨0x27 :: x, u, e⟩ ts) :
    Scans L .funcArgs ⟨tok, s, e⟩ (⟨.literal, .string, false, 0x27 :: x⟩ :: ts) := by
  apply args_quote hs
  refine Scans.step (toks := [⟨.literal, .string, false, 0x27 :: x⟩]) (l' := ⟨0x27 :: x, u, e⟩) (st' := .funcArgs) ?_ h
  show scanFuncArgQuoted _ = _
  rw [quoted_arg_eq]
  have := quotedInf_region 0x27 (by decide) (by decide) r [0x27] e
  rw [hr] at this
  simp only at this
  rw [this]
  rfl

theorem args_open_string {L : GoLib} {tok s r : Str} {e : Bool} (hs : trimLeft s = 0x27 :: r)
    (hr : region 0x27 r = none) :
    ∃ x ts, Scans L .funcArgs ⟨tok, s, e⟩ (⟨.literal, .string, true, x⟩ :: ts) := by
  have := quotedInf_region 0x27 (by decide) (by decide) r [0x27] e
  rw [hr] at this
  simp only at this
  obtain ⟨u, e', h1, h2⟩ := this
  obtain ⟨ts, hts⟩ := scans_some L .plain ⟨[0x27] ++ r.takeWhile (· ≠ 0), u, e'⟩ trivial
  refine ⟨_, ts, args_quote hs (Scans.step (toks := [⟨.literal, .string, true, [0x27] ++ r.takeWhile (· ≠ 0)⟩])
    (l' := ⟨[0x27] ++ r.takeWhile (· ≠ 0), u, e'⟩) (st' := .plain) ?_ hts)⟩
  show scanFuncArgQuoted _ = _
  rw [quoted_arg_eq, h1]
  rfl

theorem word_rune {b : UInt8} {t : Str} {e : Bool} (hw : inWord b = true) (hq : b ≠ 0x27) :
    (Lex.mk [] (b :: t) e).rune ≠ eofRune ∧ (Lex.mk [] (b :: t) e).rune ≠ rComma ∧
    (Lex.mk [] (b :: t) e).rune ≠ rRparen ∧ (Lex.mk [] (b :: t) e).rune ≠ rSQuote := by
  have e1 : ∀ {c : UInt8}, c < 0x80 → ((Lex.mk [] (b :: t) e).rune = c.toNat ↔ b = c) := rune_eq_iff
  rw [show eofRune = (0 : UInt8).toNat from rfl, show rComma = (0x2C : UInt8).toNat from rfl,
    show rRparen = (0x29 : UInt8).toNat from rfl, show rSQuote = (0x27 : UInt8).toNat from rfl,
    Ne, Ne, Ne, Ne, e1 (by decide), e1 (by decide), e1 (by decide), e1 (by decide)]
  simp only [inWord, Bool.and_eq_true, decide_eq_true_eq] at hw
  exact ⟨hw.2, hw.1.1, hw.1.2, hq⟩

theorem args_word {L : GoLib} {tok s t : Str} {b : UInt8} {e : Bool} {ts : List Token} (hs : trimLeft s = b :: t)
    (hw : inWord b = true) (hq : b ≠ 0x27)
    (h : ∀ e', (e' = e ∨ (b :: t).dropWhile inWord = []) →
      Scans L .funcArgs ⟨(b :: t).takeWhile inWord, (b :: t).dropWhile inWord, e'⟩ ts) :
    Scans L .funcArgs ⟨tok, s, e⟩ (wordTok L ((b :: t).takeWhile inWord) :: ts) := by
  obtain ⟨e', h1, h2, h3⟩ := argInf_word (b :: t) [] e
  have he : e' = e ∨ (b :: t).dropWhile inWord = [] := by
    by_cases hd : (b :: t).dropWhile inWord = []
    · exact .inr hd
    · exact .inl (h2 hd)
  refine Scans.step (toks := [wordTok L ((b :: t).takeWhile inWord)]) (st' := .funcArgs) ?_ (h e' he)
  show scanFuncArgs L _ = _
  rw [scanFuncArgs_trim, hs]
  dsimp only
  obtain ⟨r1, r2, r3, r4⟩ := word_rune (t := t) (e := e) hw hq
  rw [if_neg r1, if_neg r2, if_neg r3, if_neg r4, h1]
  have hne : (b :: t).takeWhile inWord ≠ [] := by simp [hw]
  rw [List.nil_append, if_pos (advanced_of_ne_nil hne)]

/-- The first token of the rest of an argument list. -/
theorem args_head (L : GoLib) (tok s : Str) (e : Bool) :
    ∃ t0 ts, Scans L .funcArgs ⟨tok, s, e⟩ (t0 :: ts) ∧ (t0.typ = .comma → (trimLeft s).head? = some 0x2C) ∧
      (t0.typ = .rparen → (trimLeft s).head? = some 0x29) := by
  rcases hs : trimLeft s with _ | ⟨b, t⟩
  · exact ⟨tEof, [], args_end (.inl hs), by simp [tEof], by simp [tEof]⟩
  · by_cases h0 : b = 0
    · subst h0
      exact ⟨tEof, [], args_end (.inr (by rw [hs]; rfl)), by simp [tEof], by simp [tEof]⟩
    by_cases hc : b = 0x2C
    · subst hc
      obtain ⟨ts, h⟩ := scans_some L .funcArgs ⟨[0x2C], t, e⟩ trivial
      exact ⟨_, ts, args_comma hs h, by simp, by simp [tComma]⟩
    by_cases hp : b = 0x29
    · subst hp
      obtain ⟨ts, h⟩ := scans_some L .plain ⟨[0x29], t, e⟩ trivial
      refine ⟨tRparen, ts, ?_, by simp [tRparen], by simp⟩
      refine Scans.step (l' := ⟨[0x29], t, e⟩) (toks := [tRparen]) (st' := .plain) ?_ h
      show scanFuncArgs L _ = _
      rw [scanFuncArgs_trim, hs]
      dsimp only
      rw [rune_cons_ascii (by decide), next_cons_ascii (by decide), if_neg (by decide), if_neg (by decide),
        if_pos (by decide)]
      rfl
    by_cases hq : b = 0x27
    · subst hq
      cases hr : region 0x27 t with
      | none =>
        obtain ⟨x, ts, h⟩ := args_open_string (L := L) (tok := tok) (e := e) hs hr
        exact ⟨_, ts, h, by simp, by simp⟩
      | some p =>
        obtain ⟨ts, h⟩ := scans_some L .funcArgs ⟨0x27 :: p.1, p.2, e⟩ trivial
        exact ⟨_, ts, args_string hs hr h, by simp, by simp⟩
    have hw : inWord b = true := by simp [inWord, h0, hc, hp]
    obtain ⟨e', h1, h2, h3⟩ := argInf_word (b :: t) [] e
    obtain ⟨ts, h⟩ := scans_some L .funcArgs ⟨(b :: t).takeWhile inWord, (b :: t).dropWhile inWord, e'⟩ trivial
    refine ⟨wordTok L ((b :: t).takeWhile inWord), ts, ?_, ?_, ?_⟩
    · refine Scans.step (toks := [wordTok L ((b :: t).takeWhile inWord)]) (st' := .funcArgs) ?_ h
      show scanFuncArgs L _ = _
      rw [scanFuncArgs_trim, hs]
      dsimp only
      obtain ⟨r1, r2, r3, r4⟩ := word_rune (t := t) (e := e) hw hq
      rw [if_neg r1, if_neg r2, if_neg r3, if_neg r4, h1]
      have hne : (b :: t).takeWhile inWord ≠ [] := by simp [hw]
      rw [List.nil_append, if_pos (advanced_of_ne_nil hne)]
    · unfold wordTok; split; · simp
      split; · simp
      split <;> simp
    · unfold wordTok; split; · simp
      split; · simp
      split <;> simp

/-! ## One argument -/

theorem region_length {c : UInt8} {s x u : Str} (h : region c s = some (x, u)) : u.length < s.length := by
  fun_induction region c s generalizing x u with
  | case1 => simp at h
  | case2 => cases h; simp
  | case3 => simp at h
  | case4 => simp at h
  | case5 b' t hc hz ih =>
    rw [Option.map_eq_some_iff] at h
    obtain ⟨r, h1, h2⟩ := h
    cases h2
    have := ih (x := r.1) (u := r.2) h1
    simp; omega
  | case6 => cases h; simp
  | case7 b b' t hz hb ih =>
    rw [Option.map_eq_some_iff] at h
    obtain ⟨r, h1, h2⟩ := h
    cases h2
    have := ih (x := r.1) (u := r.2) h1
    simp at this ⊢; omega

theorem readArg_word (L : GoLib) {b : UInt8} {t : Str} (hq : b ≠ 0x27) : readArg L (b :: t) =
    (let word := (b :: t).takeWhile inWord
     let rest := (b :: t).dropWhile inWord
     if word = lit "true" then some (.bool true, rest)
     else if word = lit "false" then some (.bool false, rest)
     else if word = lit "null" ∨ word = lit "nil" then some (.nil, rest)
     else if word = [] then none
     else (parseFloat L word).map fun x => (.num x, rest)) := by
  unfold readArg
  rw [if_neg (by simpa using hq)]
  rfl

theorem readArg_ok {L : GoLib} {s : Str} {a : CallArg} {u : Str} (h : readArg L (trimLeft s) = some (a, u)) :
    u.length < s.length ∧ ∃ t0 : Token, t0.typ = .literal ∧ t0.bad = false ∧ tokValue L t0 = .ok a ∧
      ∀ tok e ts, (∀ tok' e', (e' = e ∨ u = []) → Scans L .funcArgs ⟨tok', u, e'⟩ ts) →
        Scans L .funcArgs ⟨tok, s, e⟩ (t0 :: ts) := by
  have hl := trimLeft_length s
  rcases hs : trimLeft s with _ | ⟨b, t⟩
  · rw [hs] at h
    simp [readArg, lit] at h
  · rw [hs] at hl h
    by_cases hq : b = 0x27
    · subst hq
      unfold readArg at h
      rw [if_pos (show (0x27 :: t : Str).head? = some 0x27 from rfl)] at h
      simp only [List.drop_succ_cons, List.drop_zero] at h
      rw [Option.map_eq_some_iff] at h
      obtain ⟨r, h1, h2⟩ := h
      cases h2
      have := region_length (x := r.1) (u := r.2) h1
      refine ⟨by simp at hl; omega, ⟨.literal, .string, false, 0x27 :: r.1⟩, rfl, rfl, rfl, ?_⟩
      intro tok e ts h
      exact args_string (x := r.1) (u := r.2) hs h1 (h _ _ (.inl rfl))
    · rw [readArg_word L hq] at h
      have hw : inWord b = true := by
        cases hw : inWord b with
        | true => rfl
        | false => simp [hw, lit] at h
      have hdl : ((b :: t).dropWhile inWord).length < (b :: t).length := by
        have := congrArg List.length (List.takeWhile_append_dropWhile (p := inWord) (l := b :: t))
        have h2 : 0 < ((b :: t).takeWhile inWord).length := by simp [hw]
        rw [List.length_append] at this
        omega
      have key : ∀ a u, u = (b :: t).dropWhile inWord → tokValue L (wordTok L ((b :: t).takeWhile inWord)) = .ok a →
          (wordTok L ((b :: t).takeWhile inWord)).typ = .literal ∧ (wordTok L ((b :: t).takeWhile inWord)).bad = false →
          u.length < s.length ∧ ∃ t0 : Token, t0.typ = .literal ∧ t0.bad = false ∧ tokValue L t0 = .ok a ∧
          ∀ tok e ts, (∀ tok' e', (e' = e ∨ u = []) → Scans L .funcArgs ⟨tok', u, e'⟩ ts) →
            Scans L .funcArgs ⟨tok, s, e⟩ (t0 :: ts) := by
        rintro a u rfl h1 h2
        exact ⟨by omega, _, h2.1, h2.2, h1, fun tok e ts h => args_word hs hw hq fun e' he => h _ e' he⟩
      generalize (b :: t).takeWhile inWord = w at *
      dsimp only at h
      split at h
      · rename_i hx
        cases h
        refine key _ _ rfl ?_ ?_ <;> rw [hx] <;> simp [wordTok, tokValue]
      · split at h
        · rename_i hx hy
          cases h
          have h3 : ¬ (lit "false" = lit "true") := by decide
          refine key _ _ rfl ?_ ?_ <;> rw [hy] <;> simp [wordTok, tokValue, h3]
        · split at h
          · rename_i hx hy hz
            cases h
            have h3 : wordTok L w = ⟨.literal, .nil, false, w⟩ := by
              unfold wordTok; rw [if_neg (by simp [hx, hy]), if_pos hz]
            refine key _ _ rfl ?_ ?_ <;> rw [h3] <;> simp [tokValue]
          · split at h
            · simp at h
            · rename_i hx hy hz hn
              rw [Option.map_eq_some_iff] at h
              obtain ⟨x, h1, h2⟩ := h
              cases h2
              have h3 : wordTok L w = ⟨.literal, .number, false, w⟩ := by
                unfold wordTok; rw [if_neg (by simp [hx, hy]), if_neg hz, if_pos (by simp [h1])]
              refine key _ _ rfl ?_ ?_ <;> rw [h3] <;> simp [tokValue, h1]

theorem readArg_none {L : GoLib} {s : Str} (h : readArg L (trimLeft s) = none)
    (hp : (trimLeft s).head? ≠ some 0x29) (tok : Str) (e : Bool) :
    ∃ t0 ts, Scans L .funcArgs ⟨tok, s, e⟩ (t0 :: ts) ∧ t0.typ ≠ .rparen ∧ (t0.typ = .literal → t0.bad = true) := by
  rcases hs : trimLeft s with _ | ⟨b, t⟩
  · exact ⟨tEof, [], args_end (.inl hs), by simp [tEof], by simp [tEof]⟩
  · rw [hs] at h hp
    by_cases h0 : b = 0
    · subst h0
      exact ⟨tEof, [], args_end (.inr (by rw [hs]; rfl)), by simp [tEof], by simp [tEof]⟩
    by_cases hc : b = 0x2C
    · subst hc
      obtain ⟨ts, h⟩ := scans_some L .funcArgs ⟨[0x2C], t, e⟩ trivial
      exact ⟨_, ts, args_comma hs h, by simp [tComma], by simp [tComma]⟩
    have hp : b ≠ 0x29 := by simpa using hp
    by_cases hq : b = 0x27
    · subst hq
      unfold readArg at h
      rw [if_pos (show (0x27 :: t : Str).head? = some 0x27 from rfl)] at h
      simp only [List.drop_succ_cons, List.drop_zero, Option.map_eq_none_iff] at h
      obtain ⟨x, ts, h⟩ := args_open_string (L := L) (tok := tok) (e := e) hs h
      exact ⟨_, ts, h, by simp, by simp⟩
    have hw : inWord b = true := by simp [inWord, h0, hc, hp]
    rw [readArg_word L hq] at h
    obtain ⟨t0, ts, h1, h2, h3⟩ : ∃ t0 ts, Scans L .funcArgs ⟨tok, s, e⟩ (t0 :: ts) ∧ t0.typ ≠ .rparen ∧
        t0 = wordTok L ((b :: t).takeWhile inWord) := by
      obtain ⟨e', h1, h2, h3⟩ := argInf_word (b :: t) [] e
      obtain ⟨ts, h⟩ := scans_some L .funcArgs ⟨(b :: t).takeWhile inWord, (b :: t).dropWhile inWord, e'⟩ trivial
      refine ⟨wordTok L ((b :: t).takeWhile inWord), ts, ?_, ?_, rfl⟩
      · refine Scans.step (toks := [wordTok L ((b :: t).takeWhile inWord)]) (st' := .funcArgs) ?_ h
        show scanFuncArgs L _ = _
        rw [scanFuncArgs_trim, hs]
        dsimp only
        obtain ⟨r1, r2, r3, r4⟩ := word_rune (t := t) (e := e) hw hq
        rw [if_neg r1, if_neg r2, if_neg r3, if_neg r4, h1]
        have hne : (b :: t).takeWhile inWord ≠ [] := by simp [hw]
        rw [List.nil_append, if_pos (advanced_of_ne_nil hne)]
      · unfold wordTok; split; · simp
        split; · simp
        split <;> simp
    refine ⟨t0, ts, h1, h2, ?_⟩
    have hwn : (b :: t).takeWhile inWord ≠ [] := by simp [hw]
    rw [h3]
    generalize (b :: t).takeWhile inWord = w at *
    dsimp only at h
    split at h
    · simp at h
    · split at h
      · simp at h
      · split at h
        · simp at h
        · rename_i hx hy hz
          simp only [hwn, if_false, Option.map_eq_none_iff] at h
          have h3 : wordTok L w = ⟨.name, .string, true, w⟩ := by
            unfold wordTok; rw [if_neg (by simp [hx, hy]), if_neg hz, if_neg (by simp [h])]
          rw [h3]; simp

/-! ## Argument lists -/

theorem argsLoop_val {L : GoLib} {t t1 : Token} {a : CallArg} (h2 : t.typ = .literal) (h3 : t.bad = false)
    (h4 : tokValue L t = .ok a) (m : Nat) (ts : List Token) (cur : Token) (k : Nat) (st : Style) (acc : List CallArg) :
    argsLoop L (m + 1) ⟨t :: t1 :: ts, cur, k, st⟩ acc =
      if t1.typ = .comma then argsLoop L m ⟨ts, t1, k, st⟩ (acc ++ [a])
      else if t1.typ ≠ .rparen then .error (.wantRparen t1.typ) else .ok (acc ++ [a], ⟨ts, t1, k, st⟩) := by
  rw [argsLoop_cons, h2, h3, h4]
  rfl


theorem readArgs_ok {L : GoLib} {n : Nat} {s : Str} {args : List CallArg} {u : Str}
    (h : readArgs L n s = some (args, u)) :
    u.length < s.length ∧ ∀ e, ∃ Y, (∀ tok' X, PScans L ⟨[], u, e⟩ X → Scans L .funcArgs ⟨tok', s, e⟩ (Y ++ X)) ∧
      (∀ X m cur k st acc, (Y ++ X).length < m → ∃ cur',
        argsLoop L m ⟨Y ++ X, cur, k, st⟩ acc = .ok (acc ++ args, ⟨X, cur', k, st⟩)) := by
  induction n generalizing s args u with
  | zero => simp [readArgs] at h
  | succ n ih =>
    have hl := trimLeft_length s
    unfold readArgs at h
    split at h
    · rename_i hp
      cases h
      rcases hs : trimLeft s with _ | ⟨b, t⟩
      · rw [hs] at hp; simp at hp
      · rw [hs] at hp hl
        have : b = 0x29 := by simpa using hp
        subst this
        refine ⟨by simp at hl ⊢; omega, fun e => ⟨[tRparen], fun tok' X hX => args_rparen hs hX, ?_⟩⟩
        intro X m cur k st acc hm
        obtain ⟨m, rfl⟩ : ∃ m', m = m' + 1 := ⟨m - 1, by simp at hm; omega⟩
        refine ⟨tRparen, ?_⟩
        simp [argsLoop, PState.next, tRparen]
    · rename_i hp
      split at h
      · simp at h
      · rename_i a v ha
        obtain ⟨h1, t0, h2, h3, h4, h5⟩ := readArg_ok ha
        have hlv := trimLeft_length v
        split at h
        · rename_i hpv
          cases h
          rcases hs : trimLeft v with _ | ⟨b, t⟩
          · rw [hs] at hpv; simp at hpv
          · rw [hs] at hpv hlv
            have : b = 0x29 := by simpa using hpv
            subst this
            refine ⟨by simp at hlv ⊢; omega, fun e => ⟨[t0, tRparen], fun tok' X hX => ?_, ?_⟩⟩
            · refine h5 tok' e _ fun tok'' e' he => ?_
              rcases he with rfl | rfl
              · exact args_rparen hs hX
              · simp [trimLeft, trimLeftAux] at hs
            · intro X m cur k st acc hm
              obtain ⟨m, rfl⟩ : ∃ m', m = m' + 1 := ⟨m - 1, by simp at hm; omega⟩
              refine ⟨tRparen, ?_⟩
              rw [List.cons_append, argsLoop_cons, h2, h3, h4]
              simp [PState.next, tRparen]
        · split at h
          · rename_i hnp hpv
            rw [Option.map_eq_some_iff] at h
            obtain ⟨r, h6, h7⟩ := h
            cases h7
            rcases hs : trimLeft v with _ | ⟨b, t⟩
            · rw [hs] at hpv; simp at hpv
            · rw [hs] at hpv hlv h6
              have : b = 0x2C := by simpa using hpv
              subst this
              simp only [List.drop_succ_cons, List.drop_zero] at h6
              obtain ⟨h8, h9⟩ := ih (args := r.1) (u := r.2) h6
              refine ⟨by simp at hlv ⊢; omega, fun e => ?_⟩
              obtain ⟨Y, h10, h11⟩ := h9 e
              refine ⟨t0 :: tComma :: Y, fun tok' X hX => ?_, ?_⟩
              · refine h5 tok' e _ fun tok'' e' he => ?_
                rcases he with rfl | rfl
                · exact args_comma hs (h10 _ X hX)
                · simp [trimLeft, trimLeftAux] at hs
              · intro X m cur k st acc hm
                obtain ⟨m, rfl⟩ : ∃ m', m = m' + 1 := ⟨m - 1, by simp at hm; omega⟩
                obtain ⟨cur', h12⟩ := h11 X m tComma k st (acc ++ [a]) (by simp at hm ⊢; omega)
                refine ⟨cur', ?_⟩
                rw [List.cons_append, List.cons_append, argsLoop_val h2 h3 h4, if_pos (by rfl), h12]
                simp
          · simp at h

theorem readArgs_none {L : GoLib} {n : Nat} {s : Str} (hn : s.length < n) (h : readArgs L n s = none) (e : Bool) :
    ∃ ts, (∀ tok, Scans L .funcArgs ⟨tok, s, e⟩ ts) ∧ ∀ m cur k st acc, ts.length < m →
      ∃ er, argsLoop L m ⟨ts, cur, k, st⟩ acc = .error er := by
  have anyTok : ∀ s ts e, Scans L .funcArgs ⟨[], s, e⟩ ts → ∀ tok, Scans L .funcArgs ⟨tok, s, e⟩ ts := by
    rintro s ts e ⟨n, hn⟩ tok
    refine ⟨n, ?_⟩
    cases n with
    | zero => simp [scanRun] at hn
    | succ n =>
      rw [← hn]
      unfold scanRun
      rw [show scanStep L .funcArgs = scanFuncArgs L from rfl, funcArgs_tok L tok s e]
  induction n generalizing s e with
  | zero => omega
  | succ n ih =>
    unfold readArgs at h
    split at h
    · simp at h
    · rename_i hp
      split at h
      · rename_i ha
        obtain ⟨t0, ts, h1, h2, h3⟩ := readArg_none ha hp [] e
        refine ⟨t0 :: ts, anyTok _ _ _ h1, ?_⟩
        intro m cur k st acc hm
        obtain ⟨m, rfl⟩ : ∃ m', m = m' + 1 := ⟨m - 1, by simp at hm; omega⟩
        rw [argsLoop_cons]
        by_cases ht : t0.typ = .literal
        · rw [if_neg (by simp [ht]), if_pos (h3 ht)]
          exact ⟨_, rfl⟩
        · rw [if_pos ht, if_pos h2]
          exact ⟨_, rfl⟩
      · rename_i a v ha
        obtain ⟨h1, t0, h2, h3, h4, h5⟩ := readArg_ok ha
        have hlv := trimLeft_length v
        split at h
        · simp at h
        · rename_i hnp
          split at h
          · rename_i hpv
            rw [Option.map_eq_none_iff] at h
            rcases hs : trimLeft v with _ | ⟨b, t⟩
            · rw [hs] at hpv; simp at hpv
            · rw [hs] at hpv hlv h
              have : b = 0x2C := by simpa using hpv
              subst this
              simp only [List.drop_succ_cons, List.drop_zero] at h
              obtain ⟨ts, h6, h7⟩ := ih (e := e) (by simp at hlv; omega) h
              refine ⟨t0 :: tComma :: ts, fun tok => ?_, ?_⟩
              · refine h5 tok e _ fun tok'' e' he => ?_
                rcases he with rfl | rfl
                · exact args_comma hs (h6 _)
                · simp [trimLeft, trimLeftAux] at hs
              · intro m cur k st acc hm
                obtain ⟨m, rfl⟩ : ∃ m', m = m' + 1 := ⟨m - 1, by simp at hm; omega⟩
                rw [argsLoop_val h2 h3 h4, if_pos (by rfl)]
                exact h7 m _ k st _ (by simp at hm; omega)
          · rename_i hnc
            by_cases hv : v = []
            · subst hv
              refine ⟨[t0, tEof], fun tok => ?_, ?_⟩
              · exact h5 tok e _ fun tok'' e' he => args_end (.inl rfl)
              · intro m cur k st acc hm
                obtain ⟨m, rfl⟩ : ∃ m', m = m' + 1 := ⟨m - 1, by simp at hm; omega⟩
                rw [argsLoop_cons, h2, h3, h4]
                simp only [ne_eq, not_true_eq_false, if_false, Bool.false_eq_true, PState.next]
                exact ⟨_, rfl⟩
            · obtain ⟨t1, ts, h6, h7, h8⟩ := args_head L [] v e
              refine ⟨t0 :: t1 :: ts, fun tok => ?_, ?_⟩
              · refine h5 tok e _ fun tok'' e' he => ?_
                rcases he with rfl | rfl
                · exact anyTok _ _ _ h6 _
                · exact absurd rfl hv
              · intro m cur k st acc hm
                obtain ⟨m, rfl⟩ : ∃ m', m = m' + 1 := ⟨m - 1, by simp at hm; omega⟩
                rw [argsLoop_val h2 h3 h4, if_neg (fun hx => hnc (h7 hx)), if_pos (fun hx => hnp (h8 hx))]
                exact ⟨_, rfl⟩

end Sqlf
