import Verif.Proofs.Scan
import Verif.Proofs.Digits
import Verif.Spec.Template
/-!
# The scanner loops on known text

Fuel-free unfolding equations of the scanner loops and their behaviour on text made of
particular bytes.
-/

namespace Sqlf

open Lex Spec

/-! ## Fuel does not matter -/

theorem plainLoop_fuel (n m : Nat) (l : Lex) (hn : l.measure < n) (hm : l.measure < m) :
    plainLoop n l = plainLoop m l := by
  induction n generalizing l m with
  | zero => omega
  | succ n ih =>
    cases m with
    | zero => omega
    | succ m =>
      unfold plainLoop
      dsimp only
      by_cases h0 : l.rune = eofRune
      · rw [if_pos h0, if_pos h0]
      · rw [if_neg h0, if_neg h0]
        have h1 := measure_next_lt l h0
        have h2 := measure_next_le l.next
        rw [ih m l.next (by omega) (by omega), ih m l.next.next (by omega) (by omega)]

def plainInf (l : Lex) : Lex × PlainStop := plainLoop l.fuel l

theorem plainInf_eq (l : Lex) : plainInf l =
    if l.rune = eofRune then (l, .eof)
    else if l.rune = rDollar ∨ l.rune = rQuestion then
      if l.peek = l.rune then plainInf l.next.next else (l, .ref)
    else if l.rune = rHash then (l, .func)
    else if l.rune = rSQuote ∨ l.rune = rDQuote ∨ l.rune = rBacktick then (l, .quoted)
    else plainInf l.next := by
  have hf := measure_le_fuel l
  unfold plainInf
  conv => lhs; rw [show l.fuel = (l.rest.length + 1) + 1 from rfl]; unfold plainLoop
  dsimp only
  by_cases h0 : l.rune = eofRune
  · rw [if_pos h0, if_pos h0]
  · rw [if_neg h0, if_neg h0]
    have h1 := measure_next_lt l h0
    have h2 := measure_next_le l.next
    have hf : l.measure < l.rest.length + 2 := hf
    rw [plainLoop_fuel _ l.next.fuel l.next (by omega) (measure_le_fuel _),
      plainLoop_fuel _ l.next.next.fuel l.next.next (by omega) (measure_le_fuel _)]

theorem digitsLoop_fuel (n m : Nat) (l : Lex) (hn : l.measure < n) (hm : l.measure < m) :
    digitsLoop n l = digitsLoop m l := by
  induction n generalizing l m with
  | zero => omega
  | succ n ih =>
    cases m with
    | zero => omega
    | succ m =>
      unfold digitsLoop
      by_cases h0 : l.rune = eofRune
      · rw [if_pos h0, if_pos h0]
      · rw [if_neg h0, if_neg h0]
        have h1 := measure_next_lt l h0
        rw [ih m l.next (by omega) (by omega)]

def digitsInf (l : Lex) : Lex := digitsLoop l.fuel l

theorem digitsInf_eq (l : Lex) : digitsInf l =
    if l.rune = eofRune then l
    else if l.rune < 0x30 ∨ l.rune > 0x39 then l
    else digitsInf l.next := by
  have hf := measure_le_fuel l
  unfold digitsInf
  conv => lhs; rw [show l.fuel = (l.rest.length + 1) + 1 from rfl]; unfold digitsLoop
  by_cases h0 : l.rune = eofRune
  · rw [if_pos h0, if_pos h0]
  · rw [if_neg h0, if_neg h0]
    have h1 := measure_next_lt l h0
    have hf : l.measure < l.rest.length + 2 := hf
    rw [digitsLoop_fuel _ l.next.fuel l.next (by omega) (measure_le_fuel _)]

theorem quotedLoop_fuel (q : Rune) (n m : Nat) (l : Lex) (hn : l.measure < n) (hm : l.measure < m) :
    quotedLoop q n l = quotedLoop q m l := by
  induction n generalizing l m with
  | zero => omega
  | succ n ih =>
    cases m with
    | zero => omega
    | succ m =>
      unfold quotedLoop
      dsimp only
      by_cases h0 : l.rune = eofRune
      · rw [if_pos h0, if_pos h0]
      · rw [if_neg h0, if_neg h0]
        have h1 := measure_next_lt l h0
        have h2 := measure_next_le l.next
        rw [ih m l.next (by omega) (by omega), ih m l.next.next (by omega) (by omega)]

def quotedInf (q : Rune) (l : Lex) : Lex × Bool := quotedLoop q l.fuel l

theorem quotedInf_eq (q : Rune) (l : Lex) : quotedInf q l =
    if l.rune = eofRune then (l, false)
    else if l.rune = q then
      if q = rSQuote ∧ l.peek = rSQuote then quotedInf q l.next.next else (l.next, true)
    else quotedInf q l.next := by
  have hf := measure_le_fuel l
  unfold quotedInf
  conv => lhs; rw [show l.fuel = (l.rest.length + 1) + 1 from rfl]; unfold quotedLoop
  dsimp only
  by_cases h0 : l.rune = eofRune
  · rw [if_pos h0, if_pos h0]
  · rw [if_neg h0, if_neg h0]
    have h1 := measure_next_lt l h0
    have h2 := measure_next_le l.next
    have hf : l.measure < l.rest.length + 2 := hf
    rw [quotedLoop_fuel _ _ l.next.fuel l.next (by omega) (measure_le_fuel _),
      quotedLoop_fuel _ _ l.next.next.fuel l.next.next (by omega) (measure_le_fuel _)]

theorem rune_ne_eof_of_isLetter {l : Lex} (h : l.isLetter = true) : l.rune ≠ eofRune := by
  intro h0
  simp [isLetter, lower, h0, eofRune] at h

theorem rune_ne_eof_of_isDecimal {l : Lex} (h : l.isDecimal = true) : l.rune ≠ eofRune := by
  intro h0
  simp [isDecimal, h0, eofRune] at h

theorem lettersLoop_fuel (n m : Nat) (l : Lex) (hn : l.measure < n) (hm : l.measure < m) :
    lettersLoop n l = lettersLoop m l := by
  induction n generalizing l m with
  | zero => omega
  | succ n ih =>
    cases m with
    | zero => omega
    | succ m =>
      unfold lettersLoop
      by_cases h0 : l.isLetter = true
      · rw [if_pos h0, if_pos h0]
        have h1 := measure_next_lt l (rune_ne_eof_of_isLetter h0)
        rw [ih m l.next (by omega) (by omega)]
      · rw [if_neg h0, if_neg h0]

def lettersInf (l : Lex) : Lex := lettersLoop l.fuel l

theorem lettersInf_eq (l : Lex) : lettersInf l =
    if l.isLetter then lettersInf l.next else l := by
  have hf := measure_le_fuel l
  unfold lettersInf
  conv => lhs; rw [show l.fuel = (l.rest.length + 1) + 1 from rfl]; unfold lettersLoop
  by_cases h0 : l.isLetter = true
  · rw [if_pos h0, if_pos h0]
    have h1 := measure_next_lt l (rune_ne_eof_of_isLetter h0)
    have hf : l.measure < l.rest.length + 2 := hf
    rw [lettersLoop_fuel _ l.next.fuel l.next (by omega) (measure_le_fuel _)]
  · rw [if_neg h0, if_neg h0]

theorem decimalsLoop_fuel (n m : Nat) (l : Lex) (hn : l.measure < n) (hm : l.measure < m) :
    decimalsLoop n l = decimalsLoop m l := by
  induction n generalizing l m with
  | zero => omega
  | succ n ih =>
    cases m with
    | zero => omega
    | succ m =>
      unfold decimalsLoop
      by_cases h0 : l.isDecimal = true
      · rw [if_pos h0, if_pos h0]
        have h1 := measure_next_lt l (rune_ne_eof_of_isDecimal h0)
        rw [ih m l.next (by omega) (by omega)]
      · rw [if_neg h0, if_neg h0]

def decimalsInf (l : Lex) : Lex := decimalsLoop l.fuel l

theorem decimalsInf_eq (l : Lex) : decimalsInf l =
    if l.isDecimal then decimalsInf l.next else l := by
  have hf := measure_le_fuel l
  unfold decimalsInf
  conv => lhs; rw [show l.fuel = (l.rest.length + 1) + 1 from rfl]; unfold decimalsLoop
  by_cases h0 : l.isDecimal = true
  · rw [if_pos h0, if_pos h0]
    have h1 := measure_next_lt l (rune_ne_eof_of_isDecimal h0)
    have hf : l.measure < l.rest.length + 2 := hf
    rw [decimalsLoop_fuel _ l.next.fuel l.next (by omega) (measure_le_fuel _)]
  · rw [if_neg h0, if_neg h0]

theorem argLoop_fuel (n m : Nat) (l : Lex) (hn : l.measure < n) (hm : l.measure < m) :
    argLoop n l = argLoop m l := by
  induction n generalizing l m with
  | zero => omega
  | succ n ih =>
    cases m with
    | zero => omega
    | succ m =>
      unfold argLoop
      by_cases h0 : l.rune ≠ eofRune ∧ l.rune ≠ rComma ∧ l.rune ≠ rRparen
      · rw [if_pos h0, if_pos h0]
        have h1 := measure_next_lt l h0.1
        rw [ih m l.next (by omega) (by omega)]
      · rw [if_neg h0, if_neg h0]

def argInf (l : Lex) : Lex := argLoop l.fuel l

theorem argInf_eq (l : Lex) : argInf l =
    if l.rune ≠ eofRune ∧ l.rune ≠ rComma ∧ l.rune ≠ rRparen then argInf l.next else l := by
  have hf := measure_le_fuel l
  unfold argInf
  conv => lhs; rw [show l.fuel = (l.rest.length + 1) + 1 from rfl]; unfold argLoop
  by_cases h0 : l.rune ≠ eofRune ∧ l.rune ≠ rComma ∧ l.rune ≠ rRparen
  · rw [if_pos h0, if_pos h0]
    have h1 := measure_next_lt l h0.1
    have hf : l.measure < l.rest.length + 2 := hf
    rw [argLoop_fuel _ l.next.fuel l.next (by omega) (measure_le_fuel _)]
  · rw [if_neg h0, if_neg h0]

theorem isSpace_eof : isSpace eofRune = false := by decide

theorem skipWhitespaceAux_fuel (n m : Nat) (l : Lex) (hn : l.measure < n) (hm : l.measure < m) :
    skipWhitespaceAux n l = skipWhitespaceAux m l := by
  induction n generalizing l m with
  | zero => omega
  | succ n ih =>
    cases m with
    | zero => omega
    | succ m =>
      unfold skipWhitespaceAux
      dsimp only
      by_cases h0 : isSpace l.rune = true
      · have hne : l.rune ≠ eofRune := by intro h; rw [h, isSpace_eof] at h0; exact absurd h0 (by simp)
        have h1 := measure_next_lt l hne
        rw [ih m l.next (by omega) (by omega)]
      · simp [h0]

theorem skipWhitespace_eq (l : Lex) : l.skipWhitespace =
    if isSpace l.rune then
      if l.next.rune = eofRune then l.next else l.next.skipWhitespace
    else l := by
  have hf := measure_le_fuel l
  unfold skipWhitespace
  conv => lhs; rw [show l.rest.length + 2 = (l.rest.length + 1) + 1 from rfl]; unfold skipWhitespaceAux
  dsimp only
  by_cases h0 : isSpace l.rune = true
  · have hne : l.rune ≠ eofRune := by intro h; rw [h, isSpace_eof] at h0; exact absurd h0 (by simp)
    have h1 := measure_next_lt l hne
    have hf : l.measure < l.rest.length + 2 := hf
    rw [skipWhitespaceAux_fuel _ (l.next.rest.length + 2) l.next (by omega) (measure_le_fuel _)]
    simp [h0]
  · simp [h0]

/-! ## Text followed by an ASCII byte or the end -/

/-- The text starts with an ASCII byte or is empty. -/
def AsciiHead (r : Str) : Prop := ∀ b, r.head? = some b → b < 0x80

theorem asciiHead_nil : AsciiHead [] := by intro b h; simp at h

theorem asciiHead_cons {b : UInt8} {t : Str} (h : b < 0x80) : AsciiHead (b :: t) := by
  intro c hc; simp at hc; exact hc ▸ h

/-- A rune starting in `s` ends in `s` if what follows is ASCII. -/
theorem next_hi {tok s r : Str} {b : UInt8} {e : Bool} (hb : ¬ b < 0x80) (hr : AsciiHead r) :
    ∃ c s', b :: s = c ++ s' ∧ c ≠ [] ∧
      (Lex.mk tok (b :: s ++ r) e).next = ⟨tok ++ c, s' ++ r, e⟩ := by
  obtain ⟨c, r', h1, h2, h3, h4⟩ := next_cons_hi (tok := tok) (t := s ++ r) (e := e) hb
  rw [← List.cons_append] at h1
  have hlen : c.length ≤ (b :: s).length := by
    by_cases hl : c.length ≤ (b :: s).length
    · exact hl
    · exfalso
      have hl : (b :: s).length < c.length := by omega
      cases r with
      | nil =>
        have := congrArg List.length h1
        simp only [List.length_append, List.length_nil] at this
        omega
      | cons x r =>
        have hx : (b :: s ++ x :: r)[(b :: s).length]? = some x := by
          rw [List.getElem?_append_right (Nat.le_refl _)]; simp
        rw [h1, List.getElem?_append_left hl] at hx
        have := h3 x (List.mem_of_getElem? hx)
        exact this (hr x rfl)
  rw [List.append_eq_append_iff] at h1
  rcases h1 with ⟨a, ha, hb'⟩ | ⟨a, ha, hb'⟩
  · -- c = (b::s) ++ a
    have : a = [] := by
      have := congrArg List.length ha
      rw [List.length_append] at this
      exact List.eq_nil_of_length_eq_zero (by omega)
    subst this
    refine ⟨c, [], by simpa using ha.symm, h2, ?_⟩
    rw [List.cons_append, h4, hb']; rfl
  · exact ⟨c, a, ha, h2, by rw [List.cons_append, h4, hb']⟩

theorem lt_toNat {b : UInt8} (h : b < 0x80) : b.toNat < 128 := by
  simpa using UInt8.lt_iff_toNat_lt.mp h

theorem toNat_eq_iff {b c : UInt8} : b.toNat = c.toNat ↔ b = c := UInt8.toNat_inj

/-- Rune of the first byte: equal to an ASCII character exactly if the byte is. -/
theorem rune_eq_iff {tok : Str} {b c : UInt8} {t : Str} {e : Bool} (hc : c < 0x80) :
    (Lex.mk tok (b :: t) e).rune = c.toNat ↔ b = c := by
  by_cases h : b < 0x80
  · rw [rune_cons_ascii h, toNat_eq_iff]
  · have h1 := rune_cons_hi (tok := tok) (t := t) (e := e) h
    have h2 := lt_toNat hc
    constructor
    · intro h3; rw [h3] at h1; exact absurd h1 (by show ¬ (128:Nat) ≤ _; omega)
    · intro h3; exact absurd (h3 ▸ hc) h

/-- The same for the end of the input. -/
theorem rune_nil_ne {tok : Str} {e : Bool} {c : UInt8} (hc : c < 0x80) (h0 : c ≠ 0) :
    (Lex.mk tok [] e).rune ≠ c.toNat := by
  have h2 := lt_toNat hc
  have h3 : c.toNat ≠ 0 := fun h => h0 (UInt8.toNat_inj.mp (by simpa using h))
  rw [rune_nil]
  cases e
  · show (0xFFFD : Nat) ≠ _; omega
  · show (0 : Nat) ≠ _; omega

theorem rune_eq_iff_head {tok : Str} {c : UInt8} {t : Str} {e : Bool} (hc : c < 0x80) (h0 : c ≠ 0) :
    (Lex.mk tok t e).rune = c.toNat ↔ t.head? = some c := by
  cases t with
  | nil => simpa using rune_nil_ne (tok := tok) (e := e) hc h0
  | cons b t => rw [rune_eq_iff hc]; simp

theorem peek_eq_iff {tok : Str} {b c : UInt8} {t : Str} {e : Bool} (hb : b < 0x80) (hc : c < 0x80)
    (h0 : c ≠ 0) : (Lex.mk tok (b :: t) e).peek = c.toNat ↔ t.head? = some c := by
  have : (Lex.mk tok (b :: t) e).peek = match t with
      | [] => eofRune
      | x :: t => (decodeRune (x :: t)).1 := by
    simp only [peek, width, decodeRune_ascii t hb, List.drop_succ_cons, List.drop_zero]
    cases t <;> rfl
  rw [this]
  cases t with
  | nil =>
    have h3 : c.toNat ≠ 0 := fun h => h0 (UInt8.toNat_inj.mp (by simpa using h))
    simp only [List.head?_nil, reduceCtorEq, iff_false]
    show (0 : Nat) ≠ _; omega
  | cons x t =>
    have := rune_eq_iff (tok := tok) (b := x) (t := t) (e := e) hc
    simp only [rune] at this
    rw [this]; simp

/-! ## Loops passing through text -/

/-- One loop iteration over a byte that is not special: the lexer moves within `s`. -/
theorem plainInf_text (s : Str) (r tok : Str) (e : Bool) (hs : ∀ b ∈ s, plainByte b = true)
    (hr : AsciiHead r) : plainInf ⟨tok, s ++ r, e⟩ = plainInf ⟨tok ++ s, r, e⟩ := by
  induction hn : s.length using Nat.strongRecOn generalizing s tok with
  | _ n ih =>
    subst hn
    cases s with
    | nil => simp
    | cons b s =>
      have hb := hs b (by simp)
      simp only [plainByte, Bool.and_eq_true, decide_eq_true_eq] at hb
      have e1 : ∀ {c : UInt8}, c < 0x80 → ((Lex.mk tok (b :: (s ++ r)) e).rune = c.toNat ↔ b = c) :=
        rune_eq_iff
      rw [plainInf_eq]
      simp only [List.cons_append]
      rw [if_neg (by rw [show eofRune = (0 : UInt8).toNat from rfl, e1 (by decide)]; simp_all),
        if_neg (by
          rw [show rDollar = (0x24 : UInt8).toNat from rfl,
            show rQuestion = (0x3F : UInt8).toNat from rfl, e1 (by decide), e1 (by decide)]
          simp_all),
        if_neg (by rw [show rHash = (0x23 : UInt8).toNat from rfl, e1 (by decide)]; simp_all),
        if_neg (by
          rw [show rSQuote = (0x27 : UInt8).toNat from rfl,
            show rDQuote = (0x22 : UInt8).toNat from rfl,
            show rBacktick = (0x60 : UInt8).toNat from rfl,
            e1 (by decide), e1 (by decide), e1 (by decide)]
          simp_all)]
      by_cases h : b < 0x80
      · rw [next_cons_ascii h, ih s.length (by simp) s (tok ++ [b])
          (fun c hc => hs c (by simp [hc])) rfl]
        simp
      · obtain ⟨c, s', h1, h2, h3⟩ := next_hi (tok := tok) (s := s) (e := e) h hr
        rw [← List.cons_append, h3]
        have hl : s'.length < (b :: s).length := by
          rw [h1, List.length_append]
          have : 0 < c.length := List.length_pos_iff.mpr h2
          omega
        rw [ih s'.length hl s' (tok ++ c) (fun x hx => hs x (by rw [h1]; simp [hx])) rfl, h1]
        simp

theorem quotedInf_text (q : UInt8) (s : Str) (r tok : Str) (e : Bool) (hq : q < 0x80)
    (hs : ∀ b ∈ s, b ≠ q ∧ b ≠ 0) (hr : AsciiHead r) :
    quotedInf q.toNat ⟨tok, s ++ r, e⟩ = quotedInf q.toNat ⟨tok ++ s, r, e⟩ := by
  induction hn : s.length using Nat.strongRecOn generalizing s tok with
  | _ n ih =>
    subst hn
    cases s with
    | nil => simp
    | cons b s =>
      have hb := hs b (by simp)
      have e1 : ∀ {c : UInt8}, c < 0x80 → ((Lex.mk tok (b :: (s ++ r)) e).rune = c.toNat ↔ b = c) :=
        rune_eq_iff
      rw [quotedInf_eq]
      simp only [List.cons_append]
      rw [if_neg (by rw [show eofRune = (0 : UInt8).toNat from rfl, e1 (by decide)]; simp_all),
        if_neg (by rw [e1 hq]; simp_all)]
      by_cases h : b < 0x80
      · rw [next_cons_ascii h, ih s.length (by simp) s (tok ++ [b])
          (fun c hc => hs c (by simp [hc])) rfl]
        simp
      · obtain ⟨c, s', h1, h2, h3⟩ := next_hi (tok := tok) (s := s) (e := e) h hr
        rw [← List.cons_append, h3]
        have hl : s'.length < (b :: s).length := by
          rw [h1, List.length_append]
          have : 0 < c.length := List.length_pos_iff.mpr h2
          omega
        rw [ih s'.length hl s' (tok ++ c) (fun x hx => hs x (by rw [h1]; simp [hx])) rfl, h1]
        simp

/-- A quoted region ends at its closing quote. -/
theorem quotedInf_close (q : UInt8) (r tok : Str) (e : Bool) (hq : q < 0x80) (h0 : q ≠ 0)
    (hr : q = 0x27 → r.head? ≠ some 0x27) :
    quotedInf q.toNat ⟨tok, q :: r, e⟩ = (⟨tok ++ [q], r, e⟩, true) := by
  have e1 : ∀ {c : UInt8}, c < 0x80 → ((Lex.mk tok (q :: (r)) e).rune = c.toNat ↔ q = c) :=
        rune_eq_iff
  rw [quotedInf_eq,
    if_neg (by rw [show eofRune = (0 : UInt8).toNat from rfl, e1 (by decide)]; exact h0),
    if_pos (by rw [e1 hq]), if_neg, next_cons_ascii hq]
  rintro ⟨h1, h2⟩
  rw [show rSQuote = (0x27 : UInt8).toNat from rfl] at h1 h2
  have h3 := UInt8.toNat_inj.mp h1
  subst h3
  exact hr rfl ((peek_eq_iff hq hq h0).mp h2)

theorem escapeQuotes_append (s t : Str) : escapeQuotes (s ++ t) = escapeQuotes s ++ escapeQuotes t := by
  induction s with
  | nil => rfl
  | cons b s ih =>
    simp only [List.cons_append, escapeQuotes]
    split <;> simp [ih]

theorem escapeQuotes_noquote {s : Str} (h : 0x27 ∉ s) : escapeQuotes s = s := by
  induction s with
  | nil => rfl
  | cons b s ih =>
    simp only [List.mem_cons, not_or] at h
    rw [escapeQuotes, if_neg (fun hb => h.1 hb.symm), ih h.2]

/-- A list splits at its first quote. -/
theorem split_quote (s : Str) : 0x27 ∉ s ∨ ∃ a b, s = a ++ 0x27 :: b ∧ (0x27 : UInt8) ∉ a := by
  induction s with
  | nil => simp
  | cons x s ih =>
    by_cases hx : x = 0x27
    · exact Or.inr ⟨[], s, by simp [hx], by simp⟩
    · rcases ih with h | ⟨a, b, h1, h2⟩
      · left; simp only [List.mem_cons, not_or]; exact ⟨fun h' => hx h'.symm, h⟩
      · right
        refine ⟨x :: a, b, by simp [h1], ?_⟩
        simp only [List.mem_cons, not_or]; exact ⟨fun h' => hx h'.symm, h2⟩

/-- A single-quoted region with doubled quotes is scanned up to its closing quote. -/
theorem quotedInf_escaped (s r tok : Str) (e : Bool) (hs : 0 ∉ s) (hr : r.head? ≠ some 0x27) :
    quotedInf rSQuote ⟨tok, escapeQuotes s ++ 0x27 :: r, e⟩ =
      (⟨tok ++ escapeQuotes s ++ [0x27], r, e⟩, true) := by
  have hq : rSQuote = (0x27 : UInt8).toNat := rfl
  induction hn : s.length using Nat.strongRecOn generalizing s tok with
  | _ n ih =>
    subst hn
    rcases split_quote s with h | ⟨a, b, h1, h2⟩
    · rw [escapeQuotes_noquote h, hq, quotedInf_text 0x27 s _ _ _ (by decide)
        (fun b hb => ⟨fun hh => h (hh ▸ hb), fun hh => hs (hh ▸ hb)⟩)
        (asciiHead_cons (by decide)),
        quotedInf_close 0x27 _ _ _ (by decide) (by decide) (fun _ => hr)]
    · subst h1
      have hs' : 0 ∉ a ∧ 0 ∉ b := by
        simp only [List.mem_append, List.mem_cons, not_or] at hs; exact ⟨hs.1, hs.2.2⟩
      have he : escapeQuotes (a ++ 0x27 :: b) = a ++ 0x27 :: 0x27 :: escapeQuotes b := by
        rw [escapeQuotes_append, escapeQuotes_noquote h2]
        simp [escapeQuotes]
      rw [he, hq, List.append_assoc, quotedInf_text 0x27 a _ _ _ (by decide)
        (fun b hb => ⟨fun hh => h2 (hh ▸ hb), fun hh => hs'.1 (hh ▸ hb)⟩)
        (by exact asciiHead_cons (by decide))]
      rw [quotedInf_eq]
      simp only [List.cons_append]
      rw [if_neg (by
          rw [show eofRune = (0 : UInt8).toNat from rfl, rune_eq_iff (by decide)]; decide),
        if_pos (by rw [rune_eq_iff (by decide)]),
        if_pos ⟨rfl, by rw [hq, peek_eq_iff (by decide) (by decide) (by decide)]; rfl⟩,
        next_cons_ascii (by decide), next_cons_ascii (by decide), ← hq,
        ih b.length (by simp; omega) b _ hs'.2 rfl]
      simp

theorem isDecimal_iff {tok : Str} {b : UInt8} {t : Str} {e : Bool} :
    (Lex.mk tok (b :: t) e).isDecimal = isDigitB b := by
  by_cases h : b < 0x80
  · simp only [isDecimal, rune_cons_ascii h, isDigitB, UInt8.le_iff_toNat_le]
    rfl
  · have h1 := rune_cons_hi (tok := tok) (t := t) (e := e) h
    have h2 : ¬ (Lex.mk tok (b :: t) e).rune ≤ 0x39 := by
      intro h3; exact absurd (Nat.le_trans h1 h3) (by decide)
    have h3 : ¬ b ≤ 0x39 := by
      intro h3
      exact h (UInt8.lt_of_le_of_lt h3 (by decide))
    simp only [isDecimal, isDigitB, h2, h3, decide_false, Bool.and_false]

theorem isDecimal_nil {tok : Str} {e : Bool} : (Lex.mk tok [] e).isDecimal = false := by
  cases e <;> rfl

theorem digit_ascii {b : UInt8} (h : isDigitB b = true) : b < 0x80 := by
  simp only [isDigitB, Bool.and_eq_true, decide_eq_true_eq] at h
  exact UInt8.lt_of_le_of_lt h.2 (by decide)

/-- What follows a run of digits. -/
def NoDigitHead (r : Str) : Prop := ∀ b, r.head? = some b → isDigitB b = false

theorem isDecimal_head {tok r : Str} {e : Bool} (h : NoDigitHead r) :
    (Lex.mk tok r e).isDecimal = false := by
  cases r with
  | nil => exact isDecimal_nil
  | cons b t => rw [isDecimal_iff]; exact h b rfl

theorem dec_iff (x : Nat) : (0x30 ≤ x && x ≤ 0x39) = true ↔ ¬ (x < 0x30 ∨ x > 0x39) := by
  simp only [Bool.and_eq_true, decide_eq_true_eq]; omega

theorem digitsInf_digits (s r tok : Str) (e : Bool) (hs : ∀ b ∈ s, isDigitB b = true)
    (hr : NoDigitHead r) : digitsInf ⟨tok, s ++ r, e⟩ = ⟨tok ++ s, r, e⟩ := by
  have key : ∀ l : Lex, digitsInf l = if l.isDecimal then digitsInf l.next else l := by
    intro l
    rw [digitsInf_eq]
    have hd := dec_iff l.rune
    by_cases h0 : l.isDecimal = true
    · rw [if_neg (rune_ne_eof_of_isDecimal h0), if_pos h0, if_neg (hd.mp h0)]
    · rw [if_neg h0]
      split
      · rfl
      · split
        · rfl
        · rename_i h1
          exact absurd (hd.mpr h1) h0
  induction s generalizing tok with
  | nil => rw [key, List.nil_append, if_neg (by rw [isDecimal_head hr]; simp)]; simp
  | cons b s ih =>
    have hb := hs b (by simp)
    rw [key, List.cons_append, if_pos (by rw [isDecimal_iff]; exact hb),
      next_cons_ascii (digit_ascii hb), ih _ (fun c hc => hs c (by simp [hc]))]
    simp

theorem decimalsInf_digits (s r tok : Str) (e : Bool) (hs : ∀ b ∈ s, isDigitB b = true)
    (hr : NoDigitHead r) : decimalsInf ⟨tok, s ++ r, e⟩ = ⟨tok ++ s, r, e⟩ := by
  induction s generalizing tok with
  | nil => rw [decimalsInf_eq, List.nil_append, if_neg (by rw [isDecimal_head hr]; simp)]; simp
  | cons b s ih =>
    have hb := hs b (by simp)
    rw [decimalsInf_eq, List.cons_append, if_pos (by rw [isDecimal_iff]; exact hb),
      next_cons_ascii (digit_ascii hb), ih _ (fun c hc => hs c (by simp [hc]))]
    simp

theorem lower_table : ∀ n : Nat, n < 128 →
    (((0x61 ≤ (0x20 ||| n) && (0x20 ||| n) ≤ 0x7A) || n == 0x5F) =
      ((0x41 ≤ n && n ≤ 0x5A) || (0x61 ≤ n && n ≤ 0x7A) || n == 0x5F)) := by
  decide

theorem isLetter_iff {tok : Str} {b : UInt8} {t : Str} {e : Bool} :
    (Lex.mk tok (b :: t) e).isLetter = nameByte b := by
  by_cases h : b < 0x80
  · have := lower_table b.toNat (lt_toNat h)
    simp only [isLetter, lower, rune_cons_ascii h]
    rw [this]
    simp only [nameByte, UInt8.le_iff_toNat_le, ← UInt8.toNat_inj]
    rfl
  · have h1 := rune_cons_hi (tok := tok) (t := t) (e := e) h
    have h1' : (128 : Nat) ≤ (Lex.mk tok (b :: t) e).rune := h1
    have h2 : (128 : Nat) ≤ 0x20 ||| (Lex.mk tok (b :: t) e).rune :=
      Nat.le_trans h1' Nat.right_le_or
    have h3 : ¬ b ≤ 0x5A := fun h3 => h (UInt8.lt_of_le_of_lt h3 (by decide))
    have h4 : ¬ b ≤ 0x7A := fun h3 => h (UInt8.lt_of_le_of_lt h3 (by decide))
    have h5 : b ≠ 0x5F := fun h3 => h (by rw [h3]; decide)
    have h6 : ¬ (0x20 ||| (Lex.mk tok (b :: t) e).rune) ≤ 0x7A := by
      show ¬ (_ : Nat) ≤ (0x7A : Nat); omega
    have h7 : (Lex.mk tok (b :: t) e).rune ≠ 0x5F := by
      show ¬ (_ : Nat) = (0x5F : Nat); omega
    simp [isLetter, lower, nameByte, h3, h4, h5, h6, h7]

theorem isLetter_nil {tok : Str} {e : Bool} : (Lex.mk tok [] e).isLetter = false := by
  cases e <;> simp [isLetter, lower, eofRune, runeError]

theorem name_ascii {b : UInt8} (h : nameByte b = true) : b < 0x80 := by
  simp only [nameByte, Bool.or_eq_true, Bool.and_eq_true, decide_eq_true_eq] at h
  rcases h with (h | h) | h
  · exact UInt8.lt_of_le_of_lt h.2 (by decide)
  · exact UInt8.lt_of_le_of_lt h.2 (by decide)
  · rw [h]; decide

theorem lettersInf_name (s r tok : Str) (e : Bool) (hs : ∀ b ∈ s, nameByte b = true)
    (hr : ∀ b, r.head? = some b → nameByte b = false) :
    lettersInf ⟨tok, s ++ r, e⟩ = ⟨tok ++ s, r, e⟩ := by
  induction s generalizing tok with
  | nil =>
    rw [lettersInf_eq, List.nil_append, if_neg]
    · simp
    · cases r with
      | nil => rw [isLetter_nil]; simp
      | cons b r => rw [isLetter_iff, hr b rfl]; simp
  | cons b s ih =>
    have hb := hs b (by simp)
    rw [lettersInf_eq, List.cons_append, if_pos (by rw [isLetter_iff]; exact hb),
      next_cons_ascii (name_ascii hb), ih _ (fun c hc => hs c (by simp [hc]))]
    simp

/-- ASCII text without `,`, `)` and NUL, followed by `,` or `)`. -/
theorem argInf_text (s r tok : Str) (e : Bool)
    (hs : ∀ b ∈ s, b < 0x80 ∧ b ≠ 0 ∧ b ≠ 0x2C ∧ b ≠ 0x29)
    (hr : r.head? = some 0x2C ∨ r.head? = some 0x29) :
    argInf ⟨tok, s ++ r, e⟩ = ⟨tok ++ s, r, e⟩ := by
  induction s generalizing tok with
  | nil =>
    rw [argInf_eq, List.nil_append, if_neg]
    · simp
    · rw [show rComma = (0x2C : UInt8).toNat from rfl, show rRparen = (0x29 : UInt8).toNat from rfl]
      intro h
      rcases hr with h' | h'
      · exact h.2.1 ((rune_eq_iff_head (by decide) (by decide)).mpr h')
      · exact h.2.2 ((rune_eq_iff_head (by decide) (by decide)).mpr h')
  | cons b s ih =>
    have hb := hs b (by simp)
    have e1 : ∀ {c : UInt8}, c < 0x80 → ((Lex.mk tok (b :: (s ++ r)) e).rune = c.toNat ↔ b = c) :=
        rune_eq_iff
    rw [argInf_eq, List.cons_append, if_pos, next_cons_ascii hb.1,
      ih _ (fun c hc => hs c (by simp [hc]))]
    · simp
    · rw [show eofRune = (0 : UInt8).toNat from rfl, show rComma = (0x2C : UInt8).toNat from rfl,
        show rRparen = (0x29 : UInt8).toNat from rfl, Ne, Ne, Ne, e1 (by decide), e1 (by decide),
        e1 (by decide)]
      exact hb.2

/-- Blanks in front of an argument are skipped. -/
theorem skipWhitespace_blanks (k : Nat) (b : UInt8) (r tok : Str) (e : Bool) (hb : b < 0x80)
    (h0 : b ≠ 0) (hs : isSpace b.toNat = false) :
    (Lex.mk tok (List.replicate k 0x20 ++ b :: r) e).skipWhitespace =
      ⟨tok ++ List.replicate k 0x20, b :: r, e⟩ := by
  induction k generalizing tok with
  | zero =>
    rw [skipWhitespace_eq, if_neg]
    · simp
    · simp [rune_cons_ascii hb, hs]
  | succ k ih =>
    rw [List.replicate_succ, List.cons_append, skipWhitespace_eq,
      if_pos (by rw [rune_cons_ascii (by decide)]; decide), next_cons_ascii (by decide), if_neg, ih]
    · simp
    · rw [show eofRune = (0 : UInt8).toNat from rfl]
      cases k with
      | zero => simp only [List.replicate_zero, List.nil_append]; rw [rune_eq_iff (by decide)]; exact h0
      | succ k =>
        simp only [List.replicate_succ, List.cons_append]; rw [rune_eq_iff (by decide)]; decide

end Sqlf
