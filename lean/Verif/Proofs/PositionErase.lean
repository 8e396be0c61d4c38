import Verif.Model.Position
import Verif.Proofs.Loops
/-!
# The lexer, scanner and parser with positions, positions left out

Leaving the positions out of `Verif.Model.Position` gives `Verif.Model.Syntax`.
-/

namespace Sqlf

open Lex

/-- The lexer with offsets, seen as a lexer without. -/
def GLex.toLex (g : GLex) : Lex :=
  ⟨g.text, g.input.drop g.current.offset, decide (g.current.offset ≥ g.input.length) && g.rune == eofRune⟩

/-- What `Next` keeps true: the token is part of the input, rune and width are those at the offset. -/
structure GLex.WF (g : GLex) : Prop where
  le : g.start.offset ≤ g.current.offset
  len : g.current.offset ≤ g.input.length
  here : (g.current.offset = g.input.length ∧ g.width = 0 ∧ (g.rune = eofRune ∨ g.rune = runeError)) ∨
    (g.current.offset < g.input.length ∧ (g.rune, g.width) = decodeRune (g.input.drop g.current.offset))

theorem drop_cons_of_lt {s : Str} {n : Nat} (h : n < s.length) :
    s.drop n = s[n] :: s.drop (n + 1) := List.drop_eq_getElem_cons h

theorem decodeRune_width_le' (s : Str) : (decodeRune s).2 ≤ s.length := by
  cases s with
  | nil => simp [decodeRune]
  | cons b t => exact (decodeRune_width_pos b t).2

theorem GLex.WF.width_le {g : GLex} (h : g.WF) : g.current.offset + g.width ≤ g.input.length := by
  rcases h.here with ⟨h1, h2, _⟩ | ⟨h1, h2⟩
  · omega
  · have := decodeRune_width_le' (g.input.drop g.current.offset)
    rw [← h2] at this
    simp at this
    omega

theorem GLex.WF.rune_eq {g : GLex} (h : g.WF) : g.toLex.rune = g.rune := by
  rcases h.here with ⟨h1, _, h2⟩ | ⟨h1, h2⟩
  · simp only [GLex.toLex, Lex.rune, h1, List.drop_length]
    rcases h2 with h2 | h2
    · simp [h2]
    · simp [h2, runeError, eofRune]
  · simp only [GLex.toLex, Lex.rune]
    rw [drop_cons_of_lt h1] at h2 ⊢
    rw [← h2]

theorem GLex.WF.width_eq {g : GLex} (h : g.WF) : g.toLex.width = g.width := by
  rcases h.here with ⟨h1, h2, _⟩ | ⟨h1, h2⟩
  · simp [GLex.toLex, Lex.width, h1, h2, decodeRune]
  · simp only [GLex.toLex, Lex.width]
    rw [← h2]

theorem GLex.next_end {g : GLex} (h : g.input.length ≤ g.current.offset) :
    g.next = { g with width := 0, rune := eofRune } := by
  simp [GLex.next, h]

theorem GLex.next_mid {g : GLex} (h : g.current.offset < g.input.length) :
    g.next = { g with
      current := ⟨g.current.offset + g.width,
        if (decodeRune (g.input.drop (g.current.offset + g.width))).1 = 0x0A
        then ⟨g.current.place.line + 1, 0⟩ else ⟨g.current.place.line, g.current.place.col + 1⟩⟩
      rune := (decodeRune (g.input.drop (g.current.offset + g.width))).1
      width := (decodeRune (g.input.drop (g.current.offset + g.width))).2 } := by
  have : ¬ g.current.offset ≥ g.input.length := by omega
  simp [GLex.next, this]

theorem GLex.next_input (g : GLex) : g.next.input = g.input := by
  unfold GLex.next; dsimp only; split <;> rfl

theorem GLex.next_start (g : GLex) : g.next.start = g.start := by
  unfold GLex.next; dsimp only; split <;> rfl

theorem GLex.next_offset_le (g : GLex) : g.current.offset ≤ g.next.current.offset := by
  unfold GLex.next; dsimp only; split
  · exact Nat.le_refl _
  · exact Nat.le_add_right _ _

theorem GLex.WF.next {g : GLex} (h : g.WF) : g.next.WF := by
  refine ⟨?_, ?_, ?_⟩
  · rw [g.next_start]; exact Nat.le_trans h.le g.next_offset_le
  · rw [g.next_input]
    by_cases hl : g.current.offset < g.input.length
    · rw [GLex.next_mid hl]; exact h.width_le
    · rw [GLex.next_end (by omega)]; exact h.len
  · by_cases hl : g.current.offset < g.input.length
    · rw [GLex.next_mid hl]
      dsimp only
      by_cases hl' : g.current.offset + g.width < g.input.length
      · exact .inr ⟨hl', rfl⟩
      · left
        have := h.width_le
        have he : g.current.offset + g.width = g.input.length := by omega
        rw [he, List.drop_length]
        exact ⟨rfl, rfl, .inr rfl⟩
    · rw [GLex.next_end (by omega)]
      left
      have := h.len
      exact ⟨by dsimp only; omega, rfl, .inl rfl⟩

theorem text_next {s : Str} {a b w : Nat} (h1 : a ≤ b) (h2 : b + w ≤ s.length) :
    (s.take (b + w)).drop a = (s.take b).drop a ++ (s.drop b).take w := by
  rw [List.take_add, List.drop_append]
  have : a - (s.take b).length = 0 := by simp; omega
  rw [this, List.drop_zero]

theorem GLex.WF.toLex_next {g : GLex} (h : g.WF) : g.next.toLex = g.toLex.next := by
  by_cases hl : g.current.offset < g.input.length
  · have hw := h.width_le
    have hwl := h.width_eq
    rw [GLex.next_mid hl]
    unfold Lex.next
    rw [hwl]
    have hlw : (decodeRune (g.input.drop g.current.offset)).2 = g.width := by
      rcases h.here with ⟨h1, _⟩ | ⟨_, h2⟩
      · omega
      · rw [← h2]
    simp only [GLex.toLex, GLex.text]
    rw [drop_cons_of_lt hl]
    dsimp only
    rw [← drop_cons_of_lt hl, text_next h.le hw, List.drop_drop]
    congr 1
    have hz : ¬ g.input.length ≤ g.current.offset := by omega
    simp only [ge_iff_le, hz, decide_false, Bool.false_and]
    by_cases hl' : g.input.length ≤ g.current.offset + g.width
    · rw [List.drop_eq_nil_of_le hl']
      simp [decodeRune, runeError, eofRune]
    · simp [hl']
  · rw [GLex.next_end (by omega)]
    have he : g.current.offset = g.input.length := by have := h.len; omega
    simp [GLex.toLex, Lex.next, GLex.text, he]

theorem GLex.WF.peek_eq {g : GLex} (h : g.WF) : g.toLex.peek = g.peek := by
  unfold Lex.peek GLex.peek
  rw [h.width_eq]
  simp only [GLex.toLex, List.drop_drop]
  by_cases hl : g.current.offset + g.width < g.input.length
  · rw [if_neg (by omega), drop_cons_of_lt hl]
  · rw [if_pos (by omega), List.drop_eq_nil_of_le (by omega)]

theorem GLex.WF.startToken {g : GLex} (h : g.WF) : g.startToken.WF :=
  ⟨Nat.le_refl _, h.len, h.here⟩

theorem GLex.toLex_startToken (g : GLex) : g.startToken.toLex = g.toLex.startToken := by
  simp [GLex.startToken, GLex.toLex, Lex.startToken, GLex.text]

theorem GLex.WF.advanced_eq {g : GLex} (h : g.WF) : g.toLex.advanced = g.advanced := by
  have h1 := h.le
  have h2 := h.len
  unfold Lex.advanced GLex.advanced
  simp only [GLex.toLex, GLex.text]
  by_cases hl : g.start.offset < g.current.offset
  · have : (List.drop g.start.offset (List.take g.current.offset g.input)) ≠ [] := by
      intro hn
      have := congrArg List.length hn
      simp at this
      omega
    simp [hl]
    omega
  · simp [hl]
    omega

theorem GLex.WF.isLetter_eq {g : GLex} (h : g.WF) : g.toLex.isLetter = g.isLetter := by
  simp only [Lex.isLetter, GLex.isLetter, Lex.lower, GLex.lower, h.rune_eq]
  rfl

theorem GLex.WF.isDecimal_eq {g : GLex} (h : g.WF) : g.toLex.isDecimal = g.isDecimal := by
  simp only [Lex.isDecimal, GLex.isDecimal, h.rune_eq]

theorem GLex.fuel_eq (g : GLex) : g.toLex.fuel = g.fuel := by
  simp [Lex.fuel, GLex.fuel, GLex.toLex]

theorem GLex.init_wf (s : Str) : (GLex.init s).WF := by
  unfold GLex.init
  cases s with
  | nil => exact ⟨Nat.le_refl _, Nat.le_refl _, .inl ⟨rfl, rfl, .inl rfl⟩⟩
  | cons b t =>
    rw [GLex.next_mid (by simp)]
    exact ⟨Nat.le_refl _, by simp, .inr ⟨by simp, rfl⟩⟩

theorem GLex.toLex_init (s : Str) : (GLex.init s).toLex = Lex.init s := by
  unfold GLex.init
  cases s with
  | nil => rfl
  | cons b t =>
    rw [GLex.next_mid (by simp)]
    simp [GLex.toLex, Lex.init, GLex.text]

/-! ## Loops -/

/-- `g'` comes from `g` by calls of `Next`. -/
inductive Nexts : GLex → GLex → Prop where
  | refl (g) : Nexts g g
  | step {g g'} : Nexts g.next g' → Nexts g g'

theorem Nexts.wf {g g' : GLex} (h : Nexts g g') (hw : g.WF) : g'.WF := by
  induction h with
  | refl => exact hw
  | step _ ih => exact ih hw.next

theorem Nexts.input {g g' : GLex} (h : Nexts g g') : g'.input = g.input := by
  induction h with
  | refl => rfl
  | step _ ih => rw [ih, GLex.next_input]

theorem Nexts.start {g g' : GLex} (h : Nexts g g') : g'.start = g.start := by
  induction h with
  | refl => rfl
  | step _ ih => rw [ih, GLex.next_start]

theorem Nexts.le {g g' : GLex} (h : Nexts g g') : g.current.offset ≤ g'.current.offset := by
  induction h with
  | refl => exact Nat.le_refl _
  | step _ ih => exact Nat.le_trans (GLex.next_offset_le _) ih

theorem gplainLoop_nexts (n : Nat) (g : GLex) : Nexts g (gplainLoop n g).1 := by
  induction n generalizing g with
  | zero => exact .refl g
  | succ n ih =>
    unfold gplainLoop
    dsimp only
    split
    · exact .refl g
    · split
      · split
        · exact .step (.step (ih _))
        · exact .refl g
      · split
        · exact .refl g
        · split
          · exact .refl g
          · exact .step (ih _)

theorem gdigitsLoop_nexts (n : Nat) (g : GLex) : Nexts g (gdigitsLoop n g) := by
  induction n generalizing g with
  | zero => exact .refl g
  | succ n ih =>
    unfold gdigitsLoop
    split
    · exact .refl g
    · split
      · exact .refl g
      · exact .step (ih _)

theorem gquotedLoop_nexts (q : Rune) (n : Nat) (g : GLex) : Nexts g (gquotedLoop q n g).1 := by
  induction n generalizing g with
  | zero => exact .refl g
  | succ n ih =>
    unfold gquotedLoop
    dsimp only
    split
    · exact .refl g
    · split
      · split
        · exact .step (.step (ih _))
        · exact .step (.refl _)
      · exact .step (ih _)

theorem glettersLoop_nexts (n : Nat) (g : GLex) : Nexts g (glettersLoop n g) := by
  induction n generalizing g with
  | zero => exact .refl g
  | succ n ih =>
    unfold glettersLoop
    split
    · exact .step (ih _)
    · exact .refl g

theorem gdecimalsLoop_nexts (n : Nat) (g : GLex) : Nexts g (gdecimalsLoop n g) := by
  induction n generalizing g with
  | zero => exact .refl g
  | succ n ih =>
    unfold gdecimalsLoop
    split
    · exact .step (ih _)
    · exact .refl g

theorem gargLoop_nexts (n : Nat) (g : GLex) : Nexts g (gargLoop n g) := by
  induction n generalizing g with
  | zero => exact .refl g
  | succ n ih =>
    unfold gargLoop
    split
    · exact .step (ih _)
    · exact .refl g

theorem gskipWhitespace_nexts (n : Nat) (g : GLex) : Nexts g (GLex.skipWhitespaceAux n g) := by
  induction n generalizing g with
  | zero => exact .refl g
  | succ n ih =>
    unfold GLex.skipWhitespaceAux
    dsimp only
    split
    · exact .refl g
    · split
      · exact .step (.refl _)
      · exact .step (ih _)

theorem gplainLoop_erase (n : Nat) (g : GLex) (h : g.WF) :
    plainLoop n g.toLex = ((gplainLoop n g).1.toLex, (gplainLoop n g).2) := by
  induction n generalizing g with
  | zero => rfl
  | succ n ih =>
    unfold plainLoop gplainLoop
    dsimp only
    rw [h.rune_eq, h.peek_eq, ← h.toLex_next, ← h.next.toLex_next, ih _ h.next, ih _ h.next.next]
    repeat (split <;> try rfl)

theorem gdigitsLoop_erase (n : Nat) (g : GLex) (h : g.WF) :
    digitsLoop n g.toLex = (gdigitsLoop n g).toLex := by
  induction n generalizing g with
  | zero => rfl
  | succ n ih =>
    unfold digitsLoop gdigitsLoop
    rw [h.rune_eq, ← h.toLex_next, ih _ h.next]
    repeat (split <;> try rfl)

theorem gquotedLoop_erase (q : Rune) (n : Nat) (g : GLex) (h : g.WF) :
    quotedLoop q n g.toLex = ((gquotedLoop q n g).1.toLex, (gquotedLoop q n g).2) := by
  induction n generalizing g with
  | zero => rfl
  | succ n ih =>
    unfold quotedLoop gquotedLoop
    dsimp only
    rw [h.rune_eq, h.peek_eq, ← h.toLex_next, ← h.next.toLex_next, ih _ h.next, ih _ h.next.next]
    repeat (split <;> try rfl)

theorem glettersLoop_erase (n : Nat) (g : GLex) (h : g.WF) :
    lettersLoop n g.toLex = (glettersLoop n g).toLex := by
  induction n generalizing g with
  | zero => rfl
  | succ n ih =>
    unfold lettersLoop glettersLoop
    rw [h.isLetter_eq, ← h.toLex_next, ih _ h.next]
    repeat (split <;> try rfl)

theorem gdecimalsLoop_erase (n : Nat) (g : GLex) (h : g.WF) :
    decimalsLoop n g.toLex = (gdecimalsLoop n g).toLex := by
  induction n generalizing g with
  | zero => rfl
  | succ n ih =>
    unfold decimalsLoop gdecimalsLoop
    rw [h.isDecimal_eq, ← h.toLex_next, ih _ h.next]
    repeat (split <;> try rfl)

theorem gargLoop_erase (n : Nat) (g : GLex) (h : g.WF) :
    argLoop n g.toLex = (gargLoop n g).toLex := by
  induction n generalizing g with
  | zero => rfl
  | succ n ih =>
    unfold argLoop gargLoop
    rw [h.rune_eq, ← h.toLex_next, ih _ h.next]
    repeat (split <;> try rfl)

theorem gskipWhitespaceAux_erase (n : Nat) (g : GLex) (h : g.WF) :
    Lex.skipWhitespaceAux n g.toLex = (GLex.skipWhitespaceAux n g).toLex := by
  induction n generalizing g with
  | zero => rfl
  | succ n ih =>
    unfold Lex.skipWhitespaceAux GLex.skipWhitespaceAux
    dsimp only
    rw [h.rune_eq, ← h.toLex_next, h.next.rune_eq, ih _ h.next]
    repeat (split <;> try rfl)

theorem gskipWhitespace_erase (g : GLex) (h : g.WF) : g.toLex.skipWhitespace = g.skipWhitespace.toLex := by
  have : g.toLex.rest.length + 2 = g.fuel := g.fuel_eq
  unfold Lex.skipWhitespace GLex.skipWhitespace
  rw [this, gskipWhitespaceAux_erase _ _ h]

/-! ## Scan functions -/

/-- A token without its offsets and position. -/
def GToken.toToken (t : GToken) : Token := ⟨t.typ, t.kind, t.bad, t.lit⟩

theorem GLex.emit_toToken (g : GLex) (t : TokType) (k : LitKind) (b : Bool) :
    (g.emit t k b).toToken = g.toLex.emit t k b := rfl

/-- A scan result without positions. -/
def eraseRes (r : GScanRes) : ScanRes := (r.1.toLex, r.2.1.map GToken.toToken, r.2.2)

theorem gscanPlain_erase (g : GLex) (h : g.WF) : scanPlain g.toLex = eraseRes (gscanPlain g) := by
  unfold scanPlain gscanPlain
  dsimp only
  rw [← g.toLex_startToken, g.startToken.fuel_eq, gplainLoop_erase _ _ h.startToken]
  have hw := (gplainLoop_nexts g.startToken.fuel g.startToken).wf h.startToken
  generalize gplainLoop g.startToken.fuel g.startToken = r at hw
  obtain ⟨g', stop⟩ := r
  dsimp only at hw ⊢
  rw [hw.advanced_eq]
  cases stop <;> cases g'.advanced <;> rfl

theorem gscanRef_erase (g : GLex) (h : g.WF) : scanRef g.toLex = eraseRes (gscanRef g) := by
  unfold scanRef gscanRef
  dsimp only
  rw [← g.toLex_startToken, ← h.startToken.toLex_next]
  rfl

theorem gscanFunc_erase (g : GLex) (h : g.WF) : scanFunc g.toLex = eraseRes (gscanFunc g) := by
  unfold scanFunc gscanFunc
  dsimp only
  rw [← g.toLex_startToken, ← h.startToken.toLex_next]
  rfl

theorem gscanIndex_erase (g : GLex) (h : g.WF) : scanIndex g.toLex = eraseRes (gscanIndex g) := by
  unfold scanIndex gscanIndex
  dsimp only
  rw [h.rune_eq, ← g.toLex_startToken, g.startToken.fuel_eq, gdigitsLoop_erase _ _ h.startToken]
  split <;> rfl

theorem gscanQuotedPlain_erase (g : GLex) (h : g.WF) :
    scanQuotedPlain g.toLex = eraseRes (gscanQuotedPlain g) := by
  unfold scanQuotedPlain gscanQuotedPlain
  dsimp only
  rw [h.rune_eq, ← h.toLex_next, g.next.fuel_eq, gquotedLoop_erase _ _ _ h.next]
  rfl

theorem gscanFuncArgQuoted_erase (g : GLex) (h : g.WF) :
    scanFuncArgQuoted g.toLex = eraseRes (gscanFuncArgQuoted g) := by
  unfold scanFuncArgQuoted gscanFuncArgQuoted
  dsimp only
  rw [h.rune_eq, ← h.toLex_next, g.next.fuel_eq, gquotedLoop_erase _ _ _ h.next]
  dsimp only
  split <;> rfl

theorem gscanFuncName_erase (g : GLex) (h : g.WF) :
    scanFuncName g.toLex = eraseRes (gscanFuncName g) := by
  unfold scanFuncName gscanFuncName
  dsimp only
  rw [← g.toLex_startToken, g.startToken.fuel_eq, glettersLoop_erase _ _ h.startToken]
  have hw := (glettersLoop_nexts g.startToken.fuel g.startToken).wf h.startToken
  generalize glettersLoop g.startToken.fuel g.startToken = g1 at hw
  rw [hw.advanced_eq, ← g1.toLex_startToken, g1.startToken.fuel_eq, gdecimalsLoop_erase _ _ hw.startToken]
  have hw2 := (gdecimalsLoop_nexts g1.startToken.fuel g1.startToken).wf hw.startToken
  generalize gdecimalsLoop g1.startToken.fuel g1.startToken = g2 at hw2
  rw [hw2.advanced_eq, hw2.rune_eq, ← hw2.toLex_next]
  repeat (split <;> try rfl)

theorem gscanFuncArgs_erase (L : GoLib) (g : GLex) (h : g.WF) :
    scanFuncArgs L g.toLex = eraseRes (gscanFuncArgs L g) := by
  unfold scanFuncArgs gscanFuncArgs
  dsimp only
  rw [gskipWhitespace_erase _ h, ← GLex.toLex_startToken]
  have hw := ((gskipWhitespace_nexts g.fuel g).wf h).startToken
  change (g.skipWhitespace.startToken).WF at hw
  generalize g.skipWhitespace.startToken = g1 at hw
  rw [hw.rune_eq, ← hw.toLex_next, g1.fuel_eq, gargLoop_erase _ _ hw]
  have hw2 := (gargLoop_nexts g1.fuel g1).wf hw
  generalize gargLoop g1.fuel g1 = g2 at hw2
  rw [hw2.advanced_eq]
  have ht : g2.toLex.tok = g2.text := rfl
  rw [ht]
  repeat (split <;> try rfl)

theorem gscanStep_erase (L : GoLib) (st : Scan) (g : GLex) (h : g.WF) :
    scanStep L st g.toLex = eraseRes (gscanStep L st g) := by
  cases st
  · exact gscanPlain_erase g h
  · exact gscanRef_erase g h
  · exact gscanIndex_erase g h
  · exact gscanQuotedPlain_erase g h
  · exact gscanFunc_erase g h
  · exact gscanFuncName_erase g h
  · exact gscanFuncArgs_erase L g h
  · exact gscanFuncArgQuoted_erase g h

/-- The lexer after a scan function, as moves: `Next` and `StartToken`. -/
inductive Moves : GLex → GLex → Prop where
  | refl (g) : Moves g g
  | next {g g'} : Moves g.next g' → Moves g g'
  | start {g g'} : Moves g.startToken g' → Moves g g'

theorem Nexts.moves {a b c : GLex} (h : Nexts a b) (hm : Moves b c) : Moves a c := by
  induction h with
  | refl => exact hm
  | step _ ih => exact .next (ih hm)

theorem Moves.wf {a b : GLex} (h : Moves a b) (hw : a.WF) : b.WF := by
  induction h with
  | refl => exact hw
  | next _ ih => exact ih hw.next
  | start _ ih => exact ih hw.startToken

theorem gscanStep_moves (L : GoLib) (st : Scan) (g : GLex) : Moves g (gscanStep L st g).1 := by
  cases st <;> simp only [gscanStep]
  · unfold gscanPlain
    dsimp only
    have := gplainLoop_nexts g.startToken.fuel g.startToken
    generalize gplainLoop g.startToken.fuel g.startToken = r at this
    obtain ⟨g', stop⟩ := r
    cases stop <;> dsimp only
    · exact .start (this.moves (.refl _))
    · exact .start (this.moves (.refl _))
    · exact .start (this.moves (.refl _))
    · split <;> exact .start (this.moves (.refl _))
  · exact .start (.next (.refl _))
  · unfold gscanIndex
    dsimp only
    split
    · exact .start ((gdigitsLoop_nexts _ _).moves (.refl _))
    · exact .refl _
  · exact .next ((gquotedLoop_nexts g.rune g.next.fuel g.next).moves (.refl _))
  · exact .start (.next (.refl _))
  · unfold gscanFuncName
    dsimp only
    have h1 := glettersLoop_nexts g.startToken.fuel g.startToken
    generalize glettersLoop g.startToken.fuel g.startToken = g1 at h1
    have h2 := gdecimalsLoop_nexts g1.startToken.fuel g1.startToken
    generalize gdecimalsLoop g1.startToken.fuel g1.startToken = g2 at h2
    split
    · exact .start (h1.moves (.refl _))
    · split
      · exact .start (h1.moves (.start (h2.moves (.refl _))))
      · split
        · exact .start (h1.moves (.start (h2.moves (.next (.refl _)))))
        · exact .start (h1.moves (.start (h2.moves (.refl _))))
  · unfold gscanFuncArgs
    dsimp only
    have h1 : Nexts g g.skipWhitespace := gskipWhitespace_nexts g.fuel g
    generalize g.skipWhitespace = g1 at h1
    have h2 := gargLoop_nexts g1.startToken.fuel g1.startToken
    generalize gargLoop g1.startToken.fuel g1.startToken = g2 at h2
    have h3 : Moves g g2 := h1.moves (.start (h2.moves (.refl _)))
    split
    · exact h1.moves (.start (.refl _))
    · split
      · exact h1.moves (.start (.next (.refl _)))
      · split
        · exact h1.moves (.start (.next (.refl _)))
        · split
          · exact h1.moves (.start (.refl _))
          · split
            · split
              · exact h3
              · split
                · exact h3
                · split <;> exact h3
            · exact h3
  · unfold gscanFuncArgQuoted
    dsimp only
    split <;> exact .next ((gquotedLoop_nexts _ _ _).moves (.refl _))

theorem gscanRun_erase (L : GoLib) (n : Nat) (st : Scan) (g : GLex) (h : g.WF) :
    scanRun L n st g.toLex = (gscanRun L n st g).map (List.map GToken.toToken) := by
  induction n generalizing st g with
  | zero => rfl
  | succ n ih =>
    unfold scanRun gscanRun
    rw [gscanStep_erase L st g h]
    have hw := (gscanStep_moves L st g).wf h
    generalize gscanStep L st g = r at hw
    obtain ⟨g', toks, st'⟩ := r
    cases st' with
    | none => rfl
    | some st' =>
      simp only [eraseRes]
      rw [ih _ _ hw]
      cases gscanRun L n st' g' <;> simp

theorem gscanAll_erase (L : GoLib) (s : Str) :
    scanAll L s = (gscanAll L s).map (List.map GToken.toToken) := by
  unfold scanAll gscanAll
  rw [← GLex.toLex_init, gscanRun_erase L _ _ _ (GLex.init_wf s)]

/-! ## The parser -/

/-- A parser state without positions. -/
def GPState.toPState (p : GPState) : PState :=
  ⟨p.toks.map GToken.toToken, p.cur.toToken, p.bindVarIndex, p.bindVarStyle⟩

theorem GPState.toPState_next (p : GPState) : p.next.toPState = p.toPState.next := by
  obtain ⟨toks, cur, i, s⟩ := p
  cases toks <;> rfl

/-- A result without positions. -/
def dropPlaces {α β : Type} (f : α → β) : Except (Nat × PErr) α → Except PErr β
  | .ok a => .ok (f a)
  | .error e => .error e.2

theorem gbindVarExpr_erase (p : GPState) :
    bindVarExpr p.toPState = dropPlaces (fun r => (r.1.1, r.2.toPState)) (gbindVarExpr p) := by
  have hl : p.toPState.cur.lit = p.cur.lit := rfl
  have hs : p.toPState.bindVarStyle = p.bindVarStyle := rfl
  unfold bindVarExpr gbindVarExpr
  dsimp only
  rw [hl]
  generalize (if p.cur.lit = lit "$" then dollar else if p.cur.lit = lit "?" then question else 0 : Style) = t
  generalize hq : (if p.cur.lit = lit "$" ∨ p.cur.lit = lit "?" then
      { p with bindVarIndex := p.bindVarIndex + 1
               bindVarStyle := if p.bindVarStyle = 0 then t else p.bindVarStyle }
    else p) = q
  have hq' : (if p.cur.lit = lit "$" ∨ p.cur.lit = lit "?" then
      { p.toPState with bindVarIndex := p.toPState.bindVarIndex + 1
                        bindVarStyle := if p.toPState.bindVarStyle = 0 then t else p.toPState.bindVarStyle }
    else p.toPState) = q.toPState := by
    rw [← hq]; split <;> rfl
  rw [hq', ← q.toPState_next]
  have e1 : q.toPState.cur.lit = q.cur.lit := rfl
  have e2 : q.toPState.bindVarStyle = q.bindVarStyle := rfl
  have e3 : q.next.toPState.cur.typ = q.next.cur.typ := rfl
  have e4 : q.next.toPState.cur.kind = q.next.cur.kind := rfl
  have e5 : q.next.toPState.cur.lit = q.next.cur.lit := rfl
  have e6 : q.toPState.bindVarIndex = q.bindVarIndex := rfl
  rw [e1, e2, e3, e4, e5, e6]
  split
  · rfl
  · split
    · split
      · rfl
      · split
        · rfl
        · cases parseUint q.next.cur.lit <;> rfl
    · rfl

theorem gargsLoop_erase (L : GoLib) (n : Nat) (p : GPState) (acc : List CallArg) :
    argsLoop L n p.toPState acc = dropPlaces (fun r => (r.1, r.2.toPState)) (gargsLoop L n p acc) := by
  induction n generalizing p acc with
  | zero => rfl
  | succ n ih =>
    unfold argsLoop gargsLoop
    dsimp only
    rw [← p.toPState_next, ← p.next.toPState_next]
    generalize p.next = q
    have e1 : q.toPState.cur.lit = q.cur.lit := rfl
    have e2 : q.toPState.cur.typ = q.cur.typ := rfl
    have e3 : q.toPState.cur.bad = q.cur.bad := rfl
    have e4 : q.toPState.cur.kind = q.cur.kind := rfl
    have e5 : q.next.toPState.cur.typ = q.next.cur.typ := rfl
    rw [e1, e2, e3, e4, e5]
    split
    · split <;> rfl
    · split
      · rfl
      · have key : ∀ a : CallArg,
            (if q.next.cur.typ = .comma then argsLoop L n q.next.toPState (acc ++ [a])
            else if q.next.cur.typ ≠ .rparen then .error (.wantRparen q.next.cur.typ)
            else .ok (acc ++ [a], q.next.toPState)) =
            dropPlaces (fun r => (r.1, r.2.toPState))
            (if q.next.cur.typ = .comma then gargsLoop L n q.next (acc ++ [a])
            else if q.next.cur.typ ≠ .rparen then .error (q.next.error (.wantRparen q.next.cur.typ))
            else .ok (acc ++ [a], q.next)) := by
          intro a
          rw [ih]
          split
          · rfl
          · split <;> rfl
        cases q.cur.kind <;> dsimp only
        · cases parseFloat L q.cur.lit with
          | none => rfl
          | some x => exact key _
        · exact key _
        · exact key _
        · exact key _

theorem gfuncExpr_erase (L : GoLib) (p : GPState) :
    funcExpr L p.toPState = dropPlaces (fun r => (r.1.map (·.1), r.2.toPState)) (gfuncExpr L p) := by
  unfold funcExpr gfuncExpr
  dsimp only
  rw [← p.toPState_next, ← p.next.toPState_next]
  generalize p.next = q
  have e1 : q.toPState.cur.lit = q.cur.lit := rfl
  have e2 : q.toPState.cur.typ = q.cur.typ := rfl
  rw [e1, e2]
  generalize q.next = r
  have e3 : r.toPState.cur.lit = r.cur.lit := rfl
  have e4 : r.toPState.cur.typ = r.cur.typ := rfl
  have e5 : r.toPState.cur.kind = r.cur.kind := rfl
  have e6 : r.toPState.toks.length = r.toks.length := by simp [GPState.toPState]
  rw [e3, e4, e5, e6, gargsLoop_erase]
  split
  · rfl
  · cases r.cur.typ <;> dsimp only <;> try rfl
    · split
      · rfl
      · cases parseFloat L r.cur.lit <;> rfl
    · cases gargsLoop L (r.toks.length + 2) r [] <;> rfl

theorem gparseLoop_erase (L : GoLib) (n : Nat) (p : GPState) (acc : List (Expr × Place)) :
    parseLoop L n p.toPState (acc.map (·.1)) = dropPlaces (List.map (·.1)) (gparseLoop L n p acc) := by
  induction n generalizing p acc with
  | zero => rfl
  | succ n ih =>
    unfold parseLoop gparseLoop
    dsimp only
    rw [← p.toPState_next, gbindVarExpr_erase, gfuncExpr_erase]
    have ht : p.toPState.toks = p.toks.map GToken.toToken := rfl
    rw [ht]
    cases p.toks with
    | nil => rfl
    | cons t ts =>
      dsimp only [List.map_cons]
      generalize p.next = q
      have e1 : q.toPState.cur.lit = q.cur.lit := rfl
      have e2 : q.toPState.cur.typ = q.cur.typ := rfl
      rw [e1, e2]
      cases q.cur.typ <;> dsimp only <;> try rfl
      · exact ih _ _
      · cases gbindVarExpr q with
        | error e => rfl
        | ok r =>
          obtain ⟨⟨e, pl⟩, q'⟩ := r
          simpa [dropPlaces] using ih q' (acc ++ [(e, pl)])
      · have := ih q (acc ++ [(.plain q.cur.lit, q.cur.pos)])
        rw [List.map_append] at this
        exact this
      · cases gfuncExpr L q with
        | error e => rfl
        | ok r =>
          obtain ⟨es, q'⟩ := r
          simpa [dropPlaces] using ih q' (acc ++ es)

theorem gparse_erase (L : GoLib) (s : Str) : parse L s = dropPlaces (List.map (·.1)) (gparse L s) := by
  unfold parse gparse
  rw [gscanAll_erase]
  cases gscanAll L s with
  | none => rfl
  | some toks =>
    simp only [Option.map_some]
    unfold parseTokens gparseTokens
    have := gparseLoop_erase L (toks.length + 1)
      ⟨toks, ⟨.eof, [], false, .string, 0, 0, ⟨0, 0⟩⟩, 0, 0⟩ []
    simpa [GPState.toPState, GToken.toToken] using this

end Sqlf
