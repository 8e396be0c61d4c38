import Verif.Proofs.Trim
import Verif.Spec.Segments
/-!
# Reading stops at a NUL byte

The scanner takes a NUL byte for the end of the input, wherever it is.  `NulCut l l'`: the lexer `l` has a NUL
and more where the input of `l'` ends.
-/

namespace Sqlf

structure NulCut (l l' : Lex) : Prop where
  tok : l.tok = l'.tok
  rest : ∃ q, l.rest = l'.rest ++ 0 :: q

namespace NulCut

private theorem ascii0 (q : Str) : AsciiHead (0 :: q) := fun c h => by cases h; decide

theorem at_end {l l' : Lex} (h : NulCut l l') (he : l'.rest = []) : l.rune = eofRune := by
  obtain ⟨q, hq⟩ := h.rest
  rw [he] at hq
  unfold Lex.rune
  rw [hq]
  rfl

theorem end_rune {l' : Lex} (he : l'.rest = []) : l'.rune = eofRune ∨ l'.rune = runeError := by
  unfold Lex.rune
  rw [he]
  cases l'.eof <;> simp

private theorem decode {l l' : Lex} (h : NulCut l l') (hne : l'.rest ≠ []) : decodeRune l.rest = decodeRune l'.rest := by
  obtain ⟨q, hq⟩ := h.rest
  rw [hq, decodeRune_append hne (ascii0 q)]

theorem rune {l l' : Lex} (h : NulCut l l') (hne : l'.rest ≠ []) : l.rune = l'.rune := by
  have hd := h.decode hne
  obtain ⟨q, hq⟩ := h.rest
  unfold Lex.rune
  cases hr : l'.rest with
  | nil => exact absurd hr hne
  | cons b t =>
    rw [hr] at hd hq
    rw [hq] at hd ⊢
    exact congrArg (·.1) hd

theorem next {l l' : Lex} (h : NulCut l l') (hne : l'.rest ≠ []) : NulCut l.next l'.next := by
  have hd := h.decode hne
  obtain ⟨q, hq⟩ := h.rest
  have hle := decodeRune_width_le (a := l'.rest)
  have hr : l.rest ≠ [] := by rw [hq]; simp
  have h1 : l.next = { l with tok := l.tok ++ l.rest.take l.width, rest := l.rest.drop l.width } := by
    unfold Lex.next
    cases hr' : l.rest with
    | nil => exact absurd hr' hr
    | cons b t => rfl
  have h2 : l'.next = { l' with tok := l'.tok ++ l'.rest.take l'.width, rest := l'.rest.drop l'.width } := by
    unfold Lex.next
    cases hr' : l'.rest with
    | nil => exact absurd hr' hne
    | cons b t => rfl
  have hw : l.width = l'.width := congrArg (·.2) hd
  have hle' : l'.width ≤ l'.rest.length := hle
  rw [h1, h2]
  refine ⟨?_, q, ?_⟩
  · show l.tok ++ l.rest.take l.width = l'.tok ++ l'.rest.take l'.width
    rw [h.tok, hw, hq, List.take_append_of_le_length hle']
  · show l.rest.drop l.width = l'.rest.drop l'.width ++ 0 :: q
    rw [hw, hq, List.drop_append_of_le_length hle']

theorem peek {l l' : Lex} (h : NulCut l l') (hne : l'.rest ≠ []) : l.peek = l'.peek := by
  have hd := h.decode hne
  obtain ⟨q, hq⟩ := h.rest
  have hle' : l'.width ≤ l'.rest.length := decodeRune_width_le (a := l'.rest)
  have hw : l.width = l'.width := congrArg (·.2) hd
  unfold Lex.peek
  rw [hw, hq, List.drop_append_of_le_length hle']
  cases hr : l'.rest.drop l'.width with
  | nil => rfl
  | cons b t =>
    have := decodeRune_append (a := b :: t) (r := 0 :: q) (by simp) (ascii0 q)
    exact congrArg (·.1) this

theorem start {l l' : Lex} (h : NulCut l l') : NulCut l.startToken l'.startToken := ⟨rfl, h.rest⟩

theorem emit {l l' : Lex} (h : NulCut l l') (t : TokType) (k : LitKind) (b : Bool) : l.emit t k b = l'.emit t k b := by
  unfold Lex.emit
  rw [h.tok]

theorem advanced {l l' : Lex} (h : NulCut l l') : l.advanced = l'.advanced := by
  unfold Lex.advanced
  rw [h.tok]

theorem end_next {l l' : Lex} (h : NulCut l l') (he : l'.rest = []) :
    NulCut l l'.next ∧ l'.next.rest = [] ∧ l'.next.rune = eofRune := by
  have : l'.next = { l' with eof := true } := by unfold Lex.next; rw [he]
  rw [this]
  exact ⟨⟨h.tok, h.rest⟩, he, by unfold Lex.rune; simp [he]⟩

theorem next_length {l' : Lex} (hne : l'.rest ≠ []) : l'.next.rest.length < l'.rest.length := by
  unfold Lex.next
  cases hr : l'.rest with
  | nil => exact absurd hr hne
  | cons b t =>
    have := decodeRune_width_pos b t
    show ((b :: t).drop l'.width).length < _
    have hw : l'.width = (decodeRune (b :: t)).2 := by unfold Lex.width; rw [hr]
    rw [hw, List.length_drop]
    simp only [List.length_cons]
    omega

theorem next_length_le (l' : Lex) : l'.next.rest.length ≤ l'.rest.length := by
  by_cases h : l'.rest = []
  · unfold Lex.next; rw [h]; simp [h]
  · exact Nat.le_of_lt (next_length h)

theorem fuel {l l' : Lex} (h : NulCut l l') : l'.fuel < l.fuel := by
  obtain ⟨q, hq⟩ := h.rest
  unfold Lex.fuel
  rw [hq]
  simp

/-- A step that may be at the end. -/
theorem next_any {l l' : Lex} (h : NulCut l l') (hne : l'.rest ≠ []) (m m' : Lex) (hm : m = l.next) (hm' : m' = l'.next) :
    NulCut m m' := by subst hm hm'; exact h.next hne

end NulCut

/-! ## loops -/

theorem cut_plainLoop : ∀ (n n' : Nat) {l l' : Lex}, NulCut l l' → l'.rest.length + 1 ≤ n → l'.rest.length + 2 ≤ n' →
    NulCut (plainLoop n l).1 (plainLoop n' l').1 ∧ (plainLoop n l).2 = (plainLoop n' l').2 ∧
      ((plainLoop n' l').2 ≠ .eof → (plainLoop n' l').1.rest ≠ [] ∧ (plainLoop n' l').1.rune ≠ runeError) := by
  intro n
  induction n with
  | zero => intro n' l l' _ h; omega
  | succ n ih =>
    intro n' l l' h hn hn'
    obtain ⟨n', rfl⟩ : ∃ k, n' = k + 2 := ⟨n' - 2, by omega⟩
    by_cases he : l'.rest = []
    · have h1 : plainLoop (n + 1) l = (l, .eof) := by
        unfold plainLoop
        simp [h.at_end he]
      have h2 : NulCut l (plainLoop (n' + 2) l').1 ∧ (plainLoop (n' + 2) l').2 = .eof := by
        rcases NulCut.end_rune he with h2 | h2
        · have : plainLoop (n' + 2) l' = (l', .eof) := by
            rw [plainLoop]; simp [h2]
          rw [this]; exact ⟨h, rfl⟩
        · obtain ⟨h3, -, h4⟩ := h.end_next he
          have : plainLoop (n' + 2) l' = (l'.next, .eof) := by
            rw [plainLoop]
            simp only [h2]
            rw [if_neg (by decide), if_neg (by decide), if_neg (by decide), if_neg (by decide)]
            rw [plainLoop]
            simp [h4]
          rw [this]; exact ⟨h3, rfl⟩
      rw [h1]
      exact ⟨h2.1, h2.2.symm, fun hh => absurd h2.2 hh⟩
    · have hr := h.rune he
      have hp := h.peek he
      have hl := NulCut.next_length he
      rw [plainLoop, show n' + 2 = (n' + 1) + 1 from rfl, plainLoop]
      simp only [hr, hp]
      by_cases h1 : l'.rune = eofRune
      · rw [if_pos h1, if_pos h1]
        exact ⟨h, rfl, fun hh => absurd rfl hh⟩
      rw [if_neg h1, if_neg h1]
      by_cases h2 : l'.rune = rDollar ∨ l'.rune = rQuestion
      · rw [if_pos h2, if_pos h2]
        by_cases h3 : l'.peek = l'.rune
        · rw [if_pos h3, if_pos h3]
          -- the second one of two is there
          have hne2 : l'.next.rest ≠ [] := by
            intro h4
            have : l'.peek = eofRune := by
              have h5 : l'.next.rest = l'.rest.drop l'.width := by
                unfold Lex.next
                cases hr' : l'.rest with
                | nil => exact absurd hr' he
                | cons b t => rfl
              unfold Lex.peek
              rw [← h5, h4]
            rw [h3] at this
            exact h1 this
          have hl2 := NulCut.next_length hne2
          exact ih (n' + 1) ((h.next he).next hne2) (by omega) (by omega)
        · rw [if_neg h3, if_neg h3]
          exact ⟨h, rfl, fun _ => ⟨he, by rcases h2 with h2 | h2 <;> rw [h2] <;> decide⟩⟩
      rw [if_neg h2, if_neg h2]
      by_cases h3 : l'.rune = rHash
      · rw [if_pos h3, if_pos h3]; exact ⟨h, rfl, fun _ => ⟨he, by rw [h3]; decide⟩⟩
      rw [if_neg h3, if_neg h3]
      by_cases h4 : l'.rune = rSQuote ∨ l'.rune = rDQuote ∨ l'.rune = rBacktick
      · rw [if_pos h4, if_pos h4]
        exact ⟨h, rfl, fun _ => ⟨he, by rcases h4 with h4 | h4 | h4 <;> rw [h4] <;> decide⟩⟩
      rw [if_neg h4, if_neg h4]
      exact ih (n' + 1) (h.next he) (by omega) (by omega)

theorem cut_quotedLoop (qt : Rune) (hq : qt ≠ runeError) : ∀ (n n' : Nat) {l l' : Lex}, NulCut l l' → l'.rest.length + 1 ≤ n → l'.rest.length + 2 ≤ n' →
    NulCut (quotedLoop qt n l).1 (quotedLoop qt n' l').1 ∧ (quotedLoop qt n l).2 = (quotedLoop qt n' l').2 := by
  intro n
  induction n with
  | zero => intro n' l l' _ h; omega
  | succ n ih =>
    intro n' l l' h hn hn'
    obtain ⟨n', rfl⟩ : ∃ k, n' = k + 2 := ⟨n' - 2, by omega⟩
    by_cases he : l'.rest = []
    · have h1 : quotedLoop qt (n + 1) l = (l, false) := by
        unfold quotedLoop
        simp [h.at_end he]
      have h2 : NulCut l (quotedLoop qt (n' + 2) l').1 ∧ (quotedLoop qt (n' + 2) l').2 = false := by
        rcases NulCut.end_rune he with h2 | h2
        · have : quotedLoop qt (n' + 2) l' = (l', false) := by
            rw [quotedLoop]; simp [h2]
          rw [this]; exact ⟨h, rfl⟩
        · obtain ⟨h3, -, h4⟩ := h.end_next he
          have : quotedLoop qt (n' + 2) l' = (l'.next, false) := by
            rw [quotedLoop]
            simp only [h2]
            rw [if_neg (by decide), if_neg (fun hh => hq hh.symm)]
            rw [quotedLoop]
            simp [h4]
          rw [this]; exact ⟨h3, rfl⟩
      rw [h1]
      exact ⟨h2.1, h2.2.symm⟩
    · have hr := h.rune he
      have hp := h.peek he
      have hl := NulCut.next_length he
      rw [quotedLoop, show n' + 2 = (n' + 1) + 1 from rfl, quotedLoop]
      simp only [hr, hp]
      by_cases h1 : l'.rune = eofRune
      · rw [if_pos h1, if_pos h1]
        exact ⟨h, rfl⟩
      rw [if_neg h1, if_neg h1]
      by_cases h2 : l'.rune = qt
      · rw [if_pos h2, if_pos h2]
        by_cases h3 : qt = rSQuote ∧ l'.peek = rSQuote
        · rw [if_pos h3, if_pos h3]
          have hne2 : l'.next.rest ≠ [] := by
            intro h4
            have : l'.peek = eofRune := by
              have h5 : l'.next.rest = l'.rest.drop l'.width := by
                unfold Lex.next
                cases hr' : l'.rest with
                | nil => exact absurd hr' he
                | cons b t => rfl
              unfold Lex.peek
              rw [← h5, h4]
            rw [h3.2] at this
            exact absurd this (by decide)
          have hl2 := NulCut.next_length hne2
          exact ih (n' + 1) ((h.next he).next hne2) (by omega) (by omega)
        · rw [if_neg h3, if_neg h3]
          exact ⟨h.next he, rfl⟩
      rw [if_neg h2, if_neg h2]
      exact ih (n' + 1) (h.next he) (by omega) (by omega)

/-- A loop that goes on as long as the rune is of some kind, which the end is not. -/
private theorem cut_while (f : Nat → Lex → Lex) (p : Rune → Bool) (h0 : ∀ l, f 0 l = l)
    (hs : ∀ n l, f (n + 1) l = if p l.rune then f n l.next else l) (he : p eofRune = false) (hr : p runeError = false) :
    ∀ (n n' : Nat) {l l' : Lex}, NulCut l l' → l'.rest.length + 1 ≤ n → l'.rest.length + 1 ≤ n' → NulCut (f n l) (f n' l') := by
  intro n
  induction n with
  | zero => intro n' l l' _ h; omega
  | succ n ih =>
    intro n' l l' h hn hn'
    obtain ⟨n', rfl⟩ : ∃ k, n' = k + 1 := ⟨n' - 1, by omega⟩
    rw [hs, hs]
    by_cases hne : l'.rest = []
    · rw [h.at_end hne, he]
      have : p l'.rune = false := by rcases NulCut.end_rune hne with h1 | h1 <;> rw [h1] <;> assumption
      rw [this]
      exact h
    · rw [h.rune hne]
      have hl := NulCut.next_length hne
      by_cases hp : p l'.rune = true
      · rw [if_pos hp, if_pos hp]
        exact ih n' (h.next hne) (by omega) (by omega)
      · rw [if_neg hp, if_neg hp]
        exact h

theorem cut_digitsLoop (n n' : Nat) {l l' : Lex} (h : NulCut l l') (hn : l'.rest.length + 1 ≤ n) (hn' : l'.rest.length + 1 ≤ n') :
    NulCut (digitsLoop n l) (digitsLoop n' l') := by
  refine cut_while digitsLoop (fun r => !(r = eofRune ∨ r < 0x30 ∨ r > 0x39)) (fun _ => rfl) ?_ (by decide) (by decide) n n' h hn hn'
  intro n l
  rw [digitsLoop]
  by_cases h1 : l.rune = eofRune
  · simp [h1]
  · by_cases h2 : l.rune < 0x30 ∨ l.rune > 0x39
    · simp [h1, h2]
    · simp [h1, h2]

theorem cut_lettersLoop (n n' : Nat) {l l' : Lex} (h : NulCut l l') (hn : l'.rest.length + 1 ≤ n) (hn' : l'.rest.length + 1 ≤ n') :
    NulCut (lettersLoop n l) (lettersLoop n' l') :=
  cut_while lettersLoop (fun r => (0x61 ≤ (0x20 ||| r) && (0x20 ||| r) ≤ 0x7A) || r == 0x5F) (fun _ => rfl)
    (fun _ _ => rfl) (by decide) (by decide) n n' h hn hn'

theorem cut_decimalsLoop (n n' : Nat) {l l' : Lex} (h : NulCut l l') (hn : l'.rest.length + 1 ≤ n) (hn' : l'.rest.length + 1 ≤ n') :
    NulCut (decimalsLoop n l) (decimalsLoop n' l') :=
  cut_while decimalsLoop (fun r => 0x30 ≤ r && r ≤ 0x39) (fun _ => rfl)
    (fun _ _ => rfl) (by decide) (by decide) n n' h hn hn'

theorem cut_skipAux : ∀ (n n' : Nat) {l l' : Lex}, NulCut l l' → l'.rest.length + 1 ≤ n → l'.rest.length + 1 ≤ n' →
    NulCut (Lex.skipWhitespaceAux n l) (Lex.skipWhitespaceAux n' l') := by
  intro n
  induction n with
  | zero => intro n' l l' _ h; omega
  | succ n ih =>
    intro n' l l' h hn hn'
    obtain ⟨n', rfl⟩ : ∃ k, n' = k + 1 := ⟨n' - 1, by omega⟩
    rw [Lex.skipWhitespaceAux, Lex.skipWhitespaceAux]
    by_cases hne : l'.rest = []
    · have : isSpace l'.rune = false := by rcases NulCut.end_rune hne with h1 | h1 <;> rw [h1] <;> decide
      rw [h.at_end hne, this]
      exact h
    · rw [h.rune hne]
      have hl := NulCut.next_length hne
      by_cases hp : isSpace l'.rune = true
      · rw [hp]
        have hn1 := h.next hne
        simp only [Bool.not_true, Bool.false_eq_true, if_false]
        by_cases he2 : l'.next.rest = []
        · rw [if_pos (hn1.at_end he2)]
          by_cases h3 : l'.next.rune = eofRune
          · rw [if_pos h3]; exact hn1
          · rw [if_neg h3]
            cases n' with
            | zero => exact hn1
            | succ n' =>
              have h4 : isSpace l'.next.rune = false := by
                rcases NulCut.end_rune he2 with h1 | h1 <;> rw [h1] <;> decide
              rw [Lex.skipWhitespaceAux, h4]
              exact hn1
        · rw [hn1.rune he2]
          by_cases h3 : l'.next.rune = eofRune
          · rw [if_pos h3, if_pos h3]; exact hn1
          · rw [if_neg h3, if_neg h3]
            exact ih n' hn1 (by omega) (by omega)
      · simp only [Bool.not_eq_true] at hp
        rw [hp]
        exact h

theorem cut_argLoop : ∀ (n n' : Nat) {l l' : Lex}, NulCut l l' → l'.rest.length + 1 ≤ n → l'.rest.length + 2 ≤ n' →
    NulCut (argLoop n l) (argLoop n' l') ∧ (l'.rest = [] → argLoop n l = l ∧ (argLoop n' l').rest = [] ∧ (argLoop n' l').rune = eofRune ∧ (argLoop n' l').tok = l'.tok) := by
  intro n
  induction n with
  | zero => intro n' l l' _ h; omega
  | succ n ih =>
    intro n' l l' h hn hn'
    obtain ⟨n', rfl⟩ : ∃ k, n' = k + 2 := ⟨n' - 2, by omega⟩
    by_cases he : l'.rest = []
    · have h1 : argLoop (n + 1) l = l := by
        rw [argLoop, h.at_end he]; simp
      obtain ⟨h3, h5, h4⟩ := h.end_next he
      rw [h1]
      rcases NulCut.end_rune he with h2 | h2
      · have : argLoop (n' + 2) l' = l' := by
          rw [argLoop, h2]; simp
        rw [this]; exact ⟨h, fun _ => ⟨rfl, he, h2, rfl⟩⟩
      · have : argLoop (n' + 2) l' = l'.next := by
          rw [argLoop, h2, if_pos (by decide), argLoop, h4]; simp
        rw [this]; exact ⟨h3, fun _ => ⟨rfl, h5, h4, by rw [← h3.tok, h.tok]⟩⟩
    · have hl := NulCut.next_length he
      refine ⟨?_, fun hh => absurd hh he⟩
      rw [argLoop, show n' + 2 = (n' + 1) + 1 from rfl, argLoop, h.rune he]
      by_cases h1 : l'.rune ≠ eofRune ∧ l'.rune ≠ rComma ∧ l'.rune ≠ rRparen
      · rw [if_pos h1, if_pos h1]
        exact (ih (n' + 1) (h.next he) (by omega) (by omega)).1
      · rw [if_neg h1, if_neg h1]
        exact h

/-! ## scan functions -/

/-- Scan functions that begin with a rune they know. -/
def Scan.Ready : Scan → Lex → Prop
  | .ref, l | .func, l | .quotedPlain, l | .funcArgQuoted, l => l.rest ≠ [] ∧ l.rune ≠ runeError
  | _, _ => True

private theorem fuel_ok {l l' : Lex} (h : NulCut l l') : l'.rest.length + 1 ≤ l.fuel ∧ l'.rest.length + 2 ≤ l'.fuel := by
  have := h.fuel
  unfold Lex.fuel at *
  omega

/-- In step, or one step behind at the end of the arguments of a call. -/
theorem cut_scanStep (L : GoLib) (st : Scan) {l l' : Lex} (h : NulCut l l') (hp : st.Ready l') :
    (∃ m m' ts o, scanStep L st l = (m, ts, o) ∧ scanStep L st l' = (m', ts, o) ∧ NulCut m m' ∧ ∀ st', o = some st' → st'.Ready m') ∨
    (st = .funcArgs ∧ ∃ m m', scanStep L st l = (m, [], some .plain) ∧ scanStep L st l' = (m', [], some .funcArgs) ∧ NulCut m m' ∧
      m'.rest = [] ∧ m'.rune = eofRune) := by
  obtain ⟨f1, f2⟩ := fuel_ok h
  obtain ⟨g1, g2⟩ := fuel_ok h.start
  cases st with
  | plain =>
    refine .inl ?_
    obtain ⟨h1, h2, h3⟩ := cut_plainLoop _ _ h.start g1 g2
    simp only [scanStep]
    unfold scanPlain
    dsimp only
    rw [← h2] at h3
    rw [← h2, h1.advanced]
    cases hs : (plainLoop l.startToken.fuel l.startToken).2 with
    | eof =>
      dsimp only
      by_cases ha : (plainLoop l'.startToken.fuel l'.startToken).1.advanced = true
      · simp only [ha, if_true, h1.emit]
        exact ⟨_, _, _, _, rfl, rfl, h1, fun st' hs => by cases hs; trivial⟩
      · simp only [ha, h1.emit]
        exact ⟨_, _, _, _, rfl, rfl, h1, fun st' hs => by cases hs⟩
    | ref => exact ⟨_, _, _, _, rfl, by rw [h1.emit], h1, fun st' hs' => by cases hs'; exact h3 (by simp [hs])⟩
    | func => exact ⟨_, _, _, _, rfl, by rw [h1.emit], h1, fun st' hs' => by cases hs'; exact h3 (by simp [hs])⟩
    | quoted => exact ⟨_, _, _, _, rfl, rfl, h1, fun st' hs' => by cases hs'; exact h3 (by simp [hs])⟩
  | ref =>
    refine .inl ?_
    have h1 := h.start.next hp.1
    exact ⟨_, _, _, _, rfl, by simp only [scanStep]; unfold scanRef; dsimp only; rw [h1.emit], h1, fun st' hs => by cases hs; trivial⟩
  | func =>
    refine .inl ?_
    have h1 := h.start.next hp.1
    exact ⟨_, _, _, _, rfl, by simp only [scanStep]; unfold scanFunc; dsimp only; rw [h1.emit], h1, fun st' hs => by cases hs; trivial⟩
  | index =>
    refine .inl ?_
    simp only [scanStep]
    unfold scanIndex
    by_cases he : l'.rest = []
    · have h1 : ¬ (0x31 ≤ l'.rune ∧ l'.rune ≤ 0x39) := by
        rcases NulCut.end_rune he with h1 | h1 <;> rw [h1] <;> decide
      rw [if_neg h1, h.at_end he, if_neg (by decide)]
      exact ⟨_, _, _, _, rfl, rfl, h, fun st' hs => by cases hs; trivial⟩
    · rw [h.rune he]
      by_cases h1 : 0x31 ≤ l'.rune ∧ l'.rune ≤ 0x39
      · rw [if_pos h1, if_pos h1]
        have h2 := cut_digitsLoop l.startToken.fuel l'.startToken.fuel h.start g1 (by omega)
        dsimp only
        rw [h2.emit]
        exact ⟨_, _, _, _, rfl, rfl, h2, fun st' hs => by cases hs; trivial⟩
      · rw [if_neg h1, if_neg h1]
        exact ⟨_, _, _, _, rfl, rfl, h, fun st' hs => by cases hs; trivial⟩
  | quotedPlain =>
    refine .inl ?_
    have h1 := h.next hp.1
    obtain ⟨k1, k2⟩ := fuel_ok h1
    obtain ⟨h2, h3⟩ := cut_quotedLoop l'.rune hp.2 _ _ h1 k1 k2
    simp only [scanStep]
    unfold scanQuotedPlain
    dsimp only
    rw [h.rune hp.1, h3, h2.emit]
    exact ⟨_, _, _, _, rfl, rfl, h2, fun st' hs => by cases hs; trivial⟩
  | funcName =>
    refine .inl ?_
    have h1 := cut_lettersLoop l.startToken.fuel l'.startToken.fuel h.start g1 (by omega)
    simp only [scanStep]
    unfold scanFuncName
    dsimp only
    rw [h1.advanced]
    by_cases ha : (!(lettersLoop l'.startToken.fuel l'.startToken).advanced) = true
    · rw [if_pos ha, if_pos ha]
      exact ⟨_, _, _, _, rfl, rfl, h1, fun st' hs => by cases hs; trivial⟩
    rw [if_neg ha, if_neg ha]
    obtain ⟨k1, k2⟩ := fuel_ok h1.start
    have h2 := cut_decimalsLoop (lettersLoop l.startToken.fuel l.startToken).startToken.fuel
      (lettersLoop l'.startToken.fuel l'.startToken).startToken.fuel h1.start k1 (by omega)
    rw [h2.advanced]
    by_cases hb : (decimalsLoop (lettersLoop l'.startToken.fuel l'.startToken).startToken.fuel
        (lettersLoop l'.startToken.fuel l'.startToken).startToken).advanced = true
    · rw [if_pos hb, if_pos hb, h1.emit, h2.emit]
      exact ⟨_, _, _, _, rfl, rfl, h2, fun st' hs => by cases hs; trivial⟩
    rw [if_neg hb, if_neg hb]
    generalize decimalsLoop (lettersLoop l.startToken.fuel l.startToken).startToken.fuel
        (lettersLoop l.startToken.fuel l.startToken).startToken = x at h2 ⊢
    generalize decimalsLoop (lettersLoop l'.startToken.fuel l'.startToken).startToken.fuel
        (lettersLoop l'.startToken.fuel l'.startToken).startToken = x' at h2 ⊢
    by_cases he : x'.rest = []
    · have h3 : ¬ x'.rune = rLparen := by rcases NulCut.end_rune he with h3 | h3 <;> rw [h3] <;> decide
      rw [if_neg h3, h2.at_end he, if_neg (by decide), h1.emit]
      exact ⟨_, _, _, _, rfl, rfl, h2, fun st' hs => by cases hs; trivial⟩
    · rw [h2.rune he]
      by_cases h3 : x'.rune = rLparen
      · rw [if_pos h3, if_pos h3, h1.emit, (h2.next he).emit]
        exact ⟨_, _, _, _, rfl, rfl, h2.next he, fun st' hs => by cases hs; trivial⟩
      · rw [if_neg h3, if_neg h3, h1.emit]
        exact ⟨_, _, _, _, rfl, rfl, h2, fun st' hs => by cases hs; trivial⟩
  | funcArgQuoted =>
    refine .inl ?_
    have h1 := h.next hp.1
    obtain ⟨k1, k2⟩ := fuel_ok h1
    obtain ⟨h2, h3⟩ := cut_quotedLoop l'.rune hp.2 _ _ h1 k1 k2
    simp only [scanStep]
    unfold scanFuncArgQuoted
    dsimp only
    rw [h.rune hp.1, h3, h2.emit, h2.emit]
    by_cases hc : (quotedLoop l'.rune l'.next.fuel l'.next).2 = true
    · rw [if_pos hc, if_pos hc]
      exact ⟨_, _, _, _, rfl, rfl, h2, fun st' hs => by cases hs; trivial⟩
    · rw [if_neg hc, if_neg hc]
      exact ⟨_, _, _, _, rfl, rfl, h2, fun st' hs => by cases hs; trivial⟩
  | funcArgs =>
    have h1 : NulCut l.skipWhitespace.startToken l'.skipWhitespace.startToken := by
      refine NulCut.start ?_
      unfold Lex.skipWhitespace
      unfold Lex.fuel at f1 f2
      exact cut_skipAux _ _ h f1 (by omega)
    obtain ⟨k1, k2⟩ := fuel_ok h1
    simp only [scanStep]
    unfold scanFuncArgs
    dsimp only
    have ht : l'.skipWhitespace.startToken.tok = [] := rfl
    generalize l.skipWhitespace.startToken = x at h1 k1 k2 ⊢
    generalize l'.skipWhitespace.startToken = x' at h1 k1 k2 ht ⊢
    by_cases he : x'.rest = []
    · simp only [h1.at_end he, if_true]
      rcases NulCut.end_rune he with h2 | h2
      · simp only [h2, if_true]
        exact .inl ⟨_, _, _, _, rfl, rfl, h1, fun st' hs => by cases hs; trivial⟩
      · refine .inr ⟨trivial, ?_⟩
        obtain ⟨h3, h4⟩ := cut_argLoop _ _ h1 k1 k2
        obtain ⟨h4, h5, h6, h7⟩ := h4 he
        have h8 : (argLoop x'.fuel x').advanced = false := by unfold Lex.advanced; rw [h7, ht]; rfl
        rw [h2, if_neg (by decide), if_neg (by decide), if_neg (by decide), if_neg (by decide), h8]
        rw [h4] at h3
        exact ⟨_, _, rfl, rfl, h3, h5, h6⟩
    · refine .inl ?_
      rw [h1.rune he]
      by_cases c1 : x'.rune = eofRune
      · rw [if_pos c1, if_pos c1]
        exact ⟨_, _, _, _, rfl, rfl, h1, fun st' hs => by cases hs; trivial⟩
      rw [if_neg c1, if_neg c1]
      by_cases c2 : x'.rune = rComma
      · rw [if_pos c2, if_pos c2, (h1.next he).emit]
        exact ⟨_, _, _, _, rfl, rfl, h1.next he, fun st' hs => by cases hs; trivial⟩
      rw [if_neg c2, if_neg c2]
      by_cases c3 : x'.rune = rRparen
      · rw [if_pos c3, if_pos c3, (h1.next he).emit]
        exact ⟨_, _, _, _, rfl, rfl, h1.next he, fun st' hs => by cases hs; trivial⟩
      rw [if_neg c3, if_neg c3]
      by_cases c4 : x'.rune = rSQuote
      · rw [if_pos c4, if_pos c4]
        exact ⟨_, _, _, _, rfl, rfl, h1, fun st' hs => by cases hs; exact ⟨he, by rw [c4]; decide⟩⟩
      rw [if_neg c4, if_neg c4]
      obtain ⟨h3, -⟩ := cut_argLoop _ _ h1 k1 k2
      generalize argLoop x.fuel x = y at h3 ⊢
      generalize argLoop x'.fuel x' = y' at h3 ⊢
      rw [h3.advanced, h3.tok]
      by_cases d1 : y'.advanced = true
      · rw [if_pos d1, if_pos d1]
        by_cases d2 : y'.tok = lit "true" ∨ y'.tok = lit "false"
        · rw [if_pos d2, if_pos d2, h3.emit]
          exact ⟨_, _, _, _, rfl, rfl, h3, fun st' hs => by cases hs; trivial⟩
        rw [if_neg d2, if_neg d2]
        by_cases d3 : y'.tok = lit "null" ∨ y'.tok = lit "nil"
        · rw [if_pos d3, if_pos d3, h3.emit]
          exact ⟨_, _, _, _, rfl, rfl, h3, fun st' hs => by cases hs; trivial⟩
        rw [if_neg d3, if_neg d3]
        by_cases d4 : (parseFloat L y'.tok).isSome = true
        · rw [if_pos d4, if_pos d4, h3.emit]
          exact ⟨_, _, _, _, rfl, rfl, h3, fun st' hs => by cases hs; trivial⟩
        · rw [if_neg d4, if_neg d4, h3.emit]
          exact ⟨_, _, _, _, rfl, rfl, h3, fun st' hs => by cases hs; trivial⟩
      · rw [if_neg d1, if_neg d1]
        exact ⟨_, _, _, _, rfl, rfl, h3, fun st' hs => by cases hs; trivial⟩

/-- At the end the arguments of a call are left. -/
private theorem funcArgs_at_end (L : GoLib) {l : Lex} (hr : l.rune = eofRune) :
    ∃ m, scanStep L .funcArgs l = (m, [], some .plain) ∧ m = l.startToken := by
  have h1 : l.skipWhitespace = l := by
    unfold Lex.skipWhitespace
    rw [Lex.skipWhitespaceAux, hr]
    rfl
  refine ⟨_, ?_, rfl⟩
  simp only [scanStep]
  unfold scanFuncArgs
  rw [h1]
  dsimp only
  have : l.startToken.rune = eofRune := hr
  rw [this, if_pos rfl]

theorem cut_scanRun (L : GoLib) : ∀ (n : Nat) (st : Scan) {l l' : Lex} (ts : List Token), NulCut l l' → st.Ready l' →
    scanRun L n st l = some ts → ∃ n', scanRun L n' st l' = some ts := by
  intro n
  induction n with
  | zero => intro st l l' ts _ _ h; simp [scanRun] at h
  | succ n ih =>
    intro st l l' ts h hp hr
    rcases cut_scanStep L st h hp with ⟨m, m', ts1, o, h1, h2, h3, h4⟩ | ⟨rfl, m, m', h1, h2, h3, h4, h5⟩
    · rw [scanRun, h1] at hr
      cases o with
      | none => exact ⟨1, by rw [scanRun, h2]; exact hr⟩
      | some st' =>
        obtain ⟨ts2, hr2, rfl⟩ := Option.map_eq_some_iff.1 hr
        obtain ⟨n', hn'⟩ := ih st' ts2 h3 (h4 st' rfl) hr2
        refine ⟨n' + 1, ?_⟩
        rw [scanRun, h2]
        dsimp only
        rw [hn']
        rfl
    · rw [scanRun, h1] at hr
      obtain ⟨ts2, hr2, rfl⟩ := Option.map_eq_some_iff.1 hr
      obtain ⟨m2, h6, rfl⟩ := funcArgs_at_end L h5
      -- scanPlain starts a token anyway
      have h7 : ∀ k x, scanRun L k .plain (Lex.startToken x) = scanRun L k .plain x := by
        intro k x
        cases k with
        | zero => rfl
        | succ k => rfl
      obtain ⟨n', hn'⟩ := ih .plain ts2 h3 trivial hr2
      refine ⟨n' + 2, ?_⟩
      rw [scanRun, h2]
      dsimp only
      rw [scanRun, h6]
      dsimp only
      rw [h7, hn']
      rfl

/-- What `scanAll` reads ends at the first NUL. -/
theorem scanAll_cut (L : GoLib) (s q : Str) : scanAll L (s ++ 0 :: q) = scanAll L s := by
  obtain ⟨ts, h⟩ := Option.isSome_iff_exists.mp (scanAll_isSome L (s ++ 0 :: q))
  rw [h]
  obtain ⟨n, hn⟩ := cut_scanRun L _ .plain ts (l := Lex.init (s ++ 0 :: q)) (l' := Lex.init s) ⟨rfl, q, rfl⟩ trivial h
  exact (scanAll_eq hn).symm

theorem parse_cut (L : GoLib) (s q : Str) : parse L (s ++ 0 :: q) = parse L s := by
  unfold parse
  rw [scanAll_cut]

namespace Spec

theorem beforeNul_eq {s : Str} (h : 0 ∉ s) : beforeNul s = s := by
  induction s with
  | nil => rfl
  | cons b s ih =>
    rw [List.mem_cons, not_or] at h
    rw [beforeNul, List.takeWhile_cons_of_pos (by simpa using fun e => h.1 e.symm)]
    exact congrArg _ (ih h.2)

theorem nul_notMem_beforeNul (s : Str) : 0 ∉ beforeNul s := by
  induction s with
  | nil => simp [beforeNul]
  | cons b s ih =>
    by_cases hb : b = 0
    · subst hb; simp [beforeNul]
    · rw [beforeNul, List.takeWhile_cons_of_pos (by simpa using hb), List.mem_cons, not_or]
      exact ⟨fun e => hb e.symm, ih⟩

theorem beforeNul_cut {s : Str} (h : 0 ∈ s) : ∃ q, s = beforeNul s ++ 0 :: q := by
  induction s with
  | nil => cases h
  | cons b s ih =>
    by_cases hb : b = 0
    · subst hb; exact ⟨s, rfl⟩
    · obtain ⟨q, hq⟩ := ih ((List.mem_cons.1 h).resolve_left fun e => hb e.symm)
      refine ⟨q, ?_⟩
      rw [beforeNul, List.takeWhile_cons_of_pos (by simpa using hb), List.cons_append]
      exact congrArg _ hq

end Spec

theorem parse_beforeNul (L : GoLib) (s : Str) : parse L (Spec.beforeNul s) = parse L s := by
  by_cases h : 0 ∈ s
  · obtain ⟨q, hq⟩ := Spec.beforeNul_cut h
    conv => rhs; rw [hq, parse_cut]
  · rw [Spec.beforeNul_eq h]

end Sqlf
