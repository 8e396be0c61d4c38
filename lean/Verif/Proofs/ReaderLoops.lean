import Verif.Proofs.ParseToks
import Verif.Proofs.Malformed
import Verif.Spec.Reader
/-!
# The loops of the scanner, byte by byte, on arbitrary text
-/

namespace Sqlf

open Lex Spec

/-- A loop that passes over a block of bytes at once passes over them one by one. -/
theorem bytewise {α : Type} (f : Lex → α) (P : UInt8 → Prop)
    (step : ∀ tok b t e, P b → b < 0x80 → f ⟨tok, b :: t, e⟩ = f ⟨tok ++ [b], t, e⟩)
    (hi : ∀ tok b t e, ¬ b < 0x80 → f ⟨tok, b :: t, e⟩ = f (Lex.mk tok (b :: t) e).next)
    (tok : Str) (b : UInt8) (t : Str) (e : Bool) (hb : P b ∨ ¬ b < 0x80) :
    f ⟨tok, b :: t, e⟩ = f ⟨tok ++ [b], t, e⟩ := by
  induction hn : t.length using Nat.strongRecOn generalizing tok b t with
  | _ n ih =>
    subst hn
    by_cases h : b < 0x80
    · exact step tok b t e (hb.resolve_right (fun hh => hh h)) h
    · rw [hi tok b t e h]
      obtain ⟨c, r, h1, h2, h3, h4⟩ := next_cons_hi (tok := tok) (t := t) (e := e) h
      rw [h4]
      have key : ∀ (c : Str) (tok : Str), (∀ x ∈ c, ¬ x < (0x80 : UInt8)) → (c ++ r).length ≤ t.length →
          f ⟨tok, c ++ r, e⟩ = f ⟨tok ++ c, r, e⟩ := by
        intro c
        induction c with
        | nil => intro tok _ _; simp
        | cons x c ih2 =>
          intro tok hx hl
          rw [List.cons_append, ih (c ++ r).length (by simp at hl; simp; omega) tok x (c ++ r)
            (.inr (hx x (by simp))) rfl,
            ih2 (tok ++ [x]) (fun y hy => hx y (by simp [hy])) (by simp at hl ⊢; omega)]
          simp
      cases c with
      | nil => exact absurd rfl h2
      | cons x c =>
        simp only [List.cons_append, List.cons.injEq] at h1
        obtain ⟨rfl, rfl⟩ := h1
        rw [key c (tok ++ [b]) (fun y hy => h3 y (by simp [hy])) (Nat.le_refl _)]
        simp

theorem hi_ne {b c : UInt8} (h : ¬ b < 0x80) (hc : c < 0x80) : b ≠ c := by
  rintro rfl; exact h hc

theorem plainInf_byte (tok : Str) (b : UInt8) (t : Str) (e : Bool) (hb : plainByte b = true) :
    plainInf ⟨tok, b :: t, e⟩ = plainInf ⟨tok ++ [b], t, e⟩ := by
  have go : ∀ tok b t e, plainByte b = true → plainInf ⟨tok, b :: t, e⟩ = plainInf (Lex.mk tok (b :: t) e).next := by
    intro tok b t e hb
    simp only [plainByte, Bool.and_eq_true, decide_eq_true_eq] at hb
    have e1 : ∀ {c : UInt8}, c < 0x80 → ((Lex.mk tok (b :: t) e).rune = c.toNat ↔ b = c) := rune_eq_iff
    rw [plainInf_eq]
    rw [if_neg (by rw [show eofRune = (0 : UInt8).toNat from rfl, e1 (by decide)]; simp_all),
      if_neg (by
        rw [show rDollar = (0x24 : UInt8).toNat from rfl,
          show rQuestion = (0x3F : UInt8).toNat from rfl, e1 (by decide), e1 (by decide)]
        simp_all),
      if_neg (by rw [show rHash = (0x23 : UInt8).toNat from rfl, e1 (by decide)]; simp_all),
      if_neg (by
        rw [show rSQuote = (0x27 : UInt8).toNat from rfl,
          show rDQuote = (0x22 : UInt8).toNat from rfl,
          show rBacktick = (0x60 : UInt8).toNat from rfl,
          e1 (by decide), e1 (by decide), e1 (by decide)]
        simp_all)]
  refine bytewise plainInf (fun b => plainByte b = true) ?_ ?_ tok b t e (.inl hb)
  · intro tok b t e hb h
    rw [go tok b t e hb, next_cons_ascii h]
  · intro tok b t e h
    refine go tok b t e ?_
    simp [plainByte, hi_ne h (show (0x24 : UInt8) < 0x80 by decide), hi_ne h (show (0x3F : UInt8) < 0x80 by decide),
      hi_ne h (show (0x23 : UInt8) < 0x80 by decide), hi_ne h (show (0x27 : UInt8) < 0x80 by decide),
      hi_ne h (show (0x22 : UInt8) < 0x80 by decide), hi_ne h (show (0x60 : UInt8) < 0x80 by decide),
      hi_ne h (show (0x0 : UInt8) < 0x80 by decide)]

theorem plainInf_nul (tok t : Str) (e : Bool) : plainInf ⟨tok, 0 :: t, e⟩ = (⟨tok, 0 :: t, e⟩, .eof) := by
  rw [plainInf_eq, rune_cons_ascii (by decide), if_pos (by decide)]

theorem pscans_nul {L : GoLib} {p t : Str} {e : Bool} : PScans L ⟨p, 0 :: t, e⟩ (flush p ++ [tEof]) := by
  unfold PScans plainCont
  rw [plainInf_nul]
  simp only [advanced_flush]
  cases p with
  | nil => rfl
  | cons b p =>
    have : PScans L ⟨[], 0 :: t, e⟩ [tEof] := by
      unfold PScans plainCont
      rw [plainInf_nul]
      rfl
    exact ⟨[tEof], PScans.scans (l := ⟨b :: p, 0 :: t, e⟩) this, rfl⟩

/-! ## Quoted regions -/

theorem quotedInf_byte (q : UInt8) (tok : Str) (b : UInt8) (t : Str) (e : Bool) (hq : q < 0x80) (hb : b ≠ q)
    (h0 : b ≠ 0) : quotedInf q.toNat ⟨tok, b :: t, e⟩ = quotedInf q.toNat ⟨tok ++ [b], t, e⟩ := by
  have go : ∀ tok b t e, b ≠ q → b ≠ 0 → quotedInf q.toNat ⟨tok, b :: t, e⟩ =
      quotedInf q.toNat (Lex.mk tok (b :: t) e).next := by
    intro tok b t e hb h0
    have e1 : ∀ {c : UInt8}, c < 0x80 → ((Lex.mk tok (b :: t) e).rune = c.toNat ↔ b = c) := rune_eq_iff
    rw [quotedInf_eq, if_neg (by rw [show eofRune = (0 : UInt8).toNat from rfl, e1 (by decide)]; exact h0),
      if_neg (by rw [e1 hq]; exact hb)]
  refine bytewise (quotedInf q.toNat) (fun b => b ≠ q ∧ b ≠ 0) ?_ ?_ tok b t e (.inl ⟨hb, h0⟩)
  · intro tok b t e hb h
    rw [go tok b t e hb.1 hb.2, next_cons_ascii h]
  · intro tok b t e h
    exact go tok b t e (hi_ne h hq) (hi_ne h (by decide))

theorem quotedInf_nil (q : UInt8) (hq : q < 0x80) (tok : Str) (e : Bool) :
    quotedInf q.toNat ⟨tok, [], e⟩ = (⟨tok, [], true⟩, false) := by
  have := lt_toNat hq
  cases e
  · rw [quotedInf_eq, if_neg (by show runeError ≠ eofRune; decide),
      if_neg (by intro h; have h : (65533 : Nat) = q.toNat := h; omega)]
    rw [show (Lex.mk tok [] false).next = ⟨tok, [], true⟩ from rfl, quotedInf_eq, if_pos (by rfl)]
  · rw [quotedInf_eq, if_pos (by rfl)]

theorem quotedInf_nul (q : UInt8) (tok t : Str) (e : Bool) :
    quotedInf q.toNat ⟨tok, 0 :: t, e⟩ = (⟨tok, 0 :: t, e⟩, false) := by
  rw [quotedInf_eq, rune_cons_ascii (by decide), if_pos (by decide)]

theorem quotedInf_doubled (tok t : Str) (e : Bool) :
    quotedInf (0x27 : UInt8).toNat ⟨tok, 0x27 :: 0x27 :: t, e⟩ =
      quotedInf (0x27 : UInt8).toNat ⟨tok ++ [0x27, 0x27], t, e⟩ := by
  rw [quotedInf_eq, if_neg (by rw [show eofRune = (0 : UInt8).toNat from rfl, rune_eq_iff (by decide)]; decide),
    if_pos (by rw [rune_eq_iff (by decide)]),
    if_pos ⟨rfl, by rw [show rSQuote = (0x27 : UInt8).toNat from rfl, peek_eq_iff (by decide) (by decide) (by decide)]; rfl⟩,
    next_cons_ascii (by decide), next_cons_ascii (by decide)]
  simp

/-- What the loop over a quoted region does, by `region`. -/
theorem quotedInf_region (q : UInt8) (hq : q < 0x80) (h0 : q ≠ 0) (s tok : Str) (e : Bool) :
    match region q s with
    | some (x, u) => quotedInf q.toNat ⟨tok, s, e⟩ = (⟨tok ++ x, u, e⟩, true)
    | none => ∃ u e', quotedInf q.toNat ⟨tok, s, e⟩ = (⟨tok ++ s.takeWhile (· ≠ 0), u, e'⟩, false) ∧
        (u = [] ∨ u.head? = some 0) := by
  fun_induction region q s generalizing tok with
  | case1 => exact ⟨[], true, by simpa using quotedInf_nil q hq tok e, .inl rfl⟩
  | case2 => exact quotedInf_close q [] tok e hq h0 (by simp)
  | case3 b hb =>
    by_cases hz : b = 0
    · subst hz
      exact ⟨[0], e, by simpa using quotedInf_nul q tok [] e, .inr rfl⟩
    · refine ⟨[], true, ?_, .inl rfl⟩
      rw [quotedInf_byte q tok b [] e hq hb hz, quotedInf_nil q hq]
      simp [hz]
  | case4 b' t => exact ⟨0 :: b' :: t, e, by simpa using quotedInf_nul q tok (b' :: t) e, .inr rfl⟩
  | case5 b' t hc hz ih =>
    obtain ⟨rfl, rfl⟩ := hc
    rw [quotedInf_doubled]
    have := ih (tok ++ [0x27, 0x27])
    cases hr : region 0x27 t with
    | none =>
      rw [hr] at this
      obtain ⟨u, e', h1, h2⟩ := this
      exact ⟨u, e', by rw [h1]; simp, h2⟩
    | some r =>
      rw [hr] at this
      simp only [Option.map_some]
      rw [this]; simp
  | case6 b' t hc hz =>
    exact quotedInf_close q (b' :: t) tok e hq h0 (by
      intro h; simp only [List.head?_cons, ne_eq, Option.some.injEq]; exact fun h' => hc ⟨h, h'⟩)
  | case7 b b' t hz hb ih =>
    rw [quotedInf_byte q tok b (b' :: t) e hq hb hz]
    have := ih (tok ++ [b])
    cases hr : region q (b' :: t) with
    | none =>
      rw [hr] at this
      obtain ⟨u, e', h1, h2⟩ := this
      refine ⟨u, e', ?_, h2⟩
      rw [h1]
      simp [List.takeWhile_cons, hz]
    | some r =>
      rw [hr] at this
      simp only [Option.map_some]
      rw [this]; simp

/-! ## Unquoted arguments -/

def inWord (b : UInt8) : Bool := b ≠ 0x2C && b ≠ 0x29 && b ≠ 0

theorem argInf_byte (tok : Str) (b : UInt8) (t : Str) (e : Bool) (hb : inWord b = true) :
    argInf ⟨tok, b :: t, e⟩ = argInf ⟨tok ++ [b], t, e⟩ := by
  have go : ∀ tok b t e, inWord b = true → argInf ⟨tok, b :: t, e⟩ = argInf (Lex.mk tok (b :: t) e).next := by
    intro tok b t e hb
    simp only [inWord, Bool.and_eq_true, decide_eq_true_eq] at hb
    have e1 : ∀ {c : UInt8}, c < 0x80 → ((Lex.mk tok (b :: t) e).rune = c.toNat ↔ b = c) := rune_eq_iff
    rw [argInf_eq, if_pos]
    rw [show eofRune = (0 : UInt8).toNat from rfl, show rComma = (0x2C : UInt8).toNat from rfl,
      show rRparen = (0x29 : UInt8).toNat from rfl, Ne, Ne, Ne, e1 (by decide), e1 (by decide), e1 (by decide)]
    exact ⟨hb.2, hb.1.1, hb.1.2⟩
  refine bytewise argInf (fun b => inWord b = true) ?_ ?_ tok b t e (.inl hb)
  · intro tok b t e hb h
    rw [go tok b t e hb, next_cons_ascii h]
  · intro tok b t e h
    refine go tok b t e ?_
    simp [inWord, hi_ne h (show (0x2C : UInt8) < 0x80 by decide), hi_ne h (show (0x29 : UInt8) < 0x80 by decide),
      hi_ne h (show (0x0 : UInt8) < 0x80 by decide)]

theorem argInf_word (s tok : Str) (e : Bool) :
    ∃ e', argInf ⟨tok, s, e⟩ = ⟨tok ++ s.takeWhile inWord, s.dropWhile inWord, e'⟩ ∧
      (s.dropWhile inWord ≠ [] → e' = e) ∧ (s.dropWhile inWord = [] → e' = true) := by
  induction s generalizing tok with
  | nil =>
    refine ⟨true, ?_, by simp, by simp⟩
    cases e
    · rw [argInf_eq, if_pos (by refine ⟨?_, ?_, ?_⟩ <;> (rw [rune_nil]; decide)), next_nil, argInf_eq,
        if_neg (by rw [rune_nil]; simp)]
      simp
    · rw [argInf_eq, if_neg (by rw [rune_nil]; simp)]
      simp
  | cons b s ih =>
    by_cases hb : inWord b = true
    · rw [argInf_byte tok b s e hb]
      obtain ⟨e', h1, h2, h3⟩ := ih (tok ++ [b])
      refine ⟨e', ?_, ?_, ?_⟩
      · rw [h1]; simp [hb]
      · simpa [hb] using h2
      · simpa [hb] using h3
    · refine ⟨e, ?_, fun _ => rfl, by simp [hb]⟩
      rw [argInf_eq, if_neg]
      · simp [hb]
      · intro h
        apply hb
        have e1 : ∀ {c : UInt8}, c < 0x80 → ((Lex.mk tok (b :: s) e).rune = c.toNat ↔ b = c) := rune_eq_iff
        rw [show eofRune = (0 : UInt8).toNat from rfl, show rComma = (0x2C : UInt8).toNat from rfl,
          show rRparen = (0x29 : UInt8).toNat from rfl, Ne, Ne, Ne, e1 (by decide), e1 (by decide), e1 (by decide)] at h
        simp [inWord, h.1, h.2.1, h.2.2]

/-! ## White space -/

theorem trimLeftAux_fuel (n m : Nat) (s : Str) (hn : s.length ≤ n) (hm : s.length ≤ m) :
    trimLeftAux n s = trimLeftAux m s := by
  induction n generalizing s m with
  | zero =>
    cases s with
    | nil => cases m <;> rfl
    | cons b t => simp at hn
  | succ n ih =>
    cases s with
    | nil => cases m <;> rfl
    | cons b t =>
      cases m with
      | zero => simp at hm
      | succ m =>
        have := decodeRune_width_pos b t
        unfold trimLeftAux
        simp only
        split
        · refine ih m _ ?_ ?_ <;> (rw [List.length_drop]; simp only [List.length_cons] at *; omega)
        · rfl

theorem trimLeft_cons (b : UInt8) (t : Str) : trimLeft (b :: t) =
    if isSpace (decodeRune (b :: t)).1 then trimLeft ((b :: t).drop (decodeRune (b :: t)).2) else b :: t := by
  have := decodeRune_width_pos b t
  show trimLeftAux (t.length + 1) (b :: t) = _
  rw [trimLeftAux]
  split
  · exact trimLeftAux_fuel _ _ _ (by rw [List.length_drop]; simp only [List.length_cons] at *; omega) (Nat.le_refl _)
  · rfl

theorem trimLeft_length (s : Str) : (trimLeft s).length ≤ s.length := by
  induction hn : s.length using Nat.strongRecOn generalizing s with
  | _ n ih =>
    subst hn
    cases s with
    | nil => exact Nat.le_refl _
    | cons b t =>
      have := decodeRune_width_pos b t
      rw [trimLeft_cons]
      split
      · have h2 := ih _ (by rw [List.length_drop]; simp only [List.length_cons] at *; omega) ((b :: t).drop (decodeRune (b :: t)).2) rfl
        rw [List.length_drop] at h2
        omega
      · exact Nat.le_refl _

/-- The first rune of a trimmed text is not white space. -/
theorem trimLeft_head (s : Str) {b : UInt8} {t : Str} (h : trimLeft s = b :: t) :
    isSpace (decodeRune (b :: t)).1 = false := by
  induction hn : s.length using Nat.strongRecOn generalizing s with
  | _ n ih =>
    subst hn
    cases s with
    | nil => simp [trimLeft, trimLeftAux] at h
    | cons c u =>
      have := decodeRune_width_pos c u
      rw [trimLeft_cons] at h
      split at h
      · exact ih _ (by rw [List.length_drop]; simp only [List.length_cons] at *; omega) _ h rfl
      · rename_i hs
        cases h
        simpa using hs

theorem skip_trim (s tok : Str) (e : Bool) :
    ((Lex.mk tok s e).skipWhitespace).startToken = ⟨[], trimLeft s, e⟩ := by
  induction hn : s.length using Nat.strongRecOn generalizing s tok with
  | _ n ih =>
    subst hn
    cases s with
    | nil =>
      rw [skipWhitespace_eq, if_neg (by rw [rune_nil]; cases e <;> decide)]
      rfl
    | cons b t =>
      have hw := decodeRune_width_pos b t
      rw [skipWhitespace_eq, trimLeft_cons]
      have hr : (Lex.mk tok (b :: t) e).rune = (decodeRune (b :: t)).1 := rfl
      rw [hr]
      by_cases hs : isSpace (decodeRune (b :: t)).1 = true
      · rw [if_pos hs, if_pos hs]
        have hnx : (Lex.mk tok (b :: t) e).next =
            ⟨tok ++ (b :: t).take (decodeRune (b :: t)).2, (b :: t).drop (decodeRune (b :: t)).2, e⟩ := rfl
        rw [hnx]
        generalize hd : (b :: t).drop (decodeRune (b :: t)).2 = d
        have hl : d.length < (b :: t).length := by
          rw [← hd, List.length_drop]; simp only [List.length_cons] at *; omega
        split
        · rename_i hz
          cases d with
          | nil => rfl
          | cons c d =>
            rw [show eofRune = (0 : UInt8).toNat from rfl, rune_eq_iff (by decide)] at hz
            subst hz
            have h0 : decodeRune (0 :: d) = (0, 1) := decodeRune_ascii d (by decide)
            rw [trimLeft_cons, h0, if_neg (by decide)]
            rfl
        · exact ih _ hl d _ rfl
      · rw [if_neg hs, if_neg hs]
        rfl

end Sqlf
