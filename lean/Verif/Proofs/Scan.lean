import Verif.Proofs.Lexer
/-!
# The scanner terminates: `scanAll` always has enough fuel
-/

namespace Sqlf

open Lex

theorem eofRune_lt : eofRune = 0 := rfl

/-- `l'` is `l` or made progress. -/
def Advance (l l' : Lex) : Prop := l' = l ∨ l'.measure < l.measure

theorem Advance.le {l l' : Lex} (h : Advance l l') : l'.measure ≤ l.measure := by
  rcases h with rfl | h <;> omega

theorem plainLoop_prog (n : Nat) (l : Lex) :
    Advance l (plainLoop n l).1 ∧
    ((plainLoop n l).2 ≠ .eof → (plainLoop n l).1.rune ≠ eofRune) := by
  induction n generalizing l with
  | zero => simp [plainLoop, Advance]
  | succ n ih =>
    unfold plainLoop
    dsimp only
    split
    · simp [Advance]
    · rename_i h0
      have hn := measure_next_lt l h0
      split
      · split
        · have := ih l.next.next
          have h2 := measure_next_le l.next
          refine ⟨Or.inr ?_, this.2⟩
          have := this.1.le
          omega
        · exact ⟨Or.inl rfl, fun _ => h0⟩
      · split
        · exact ⟨Or.inl rfl, fun _ => h0⟩
        · split
          · exact ⟨Or.inl rfl, fun _ => h0⟩
          · have := ih l.next
            refine ⟨Or.inr ?_, this.2⟩
            have := this.1.le
            omega

theorem digitsLoop_prog (n : Nat) (l : Lex) : Advance l (digitsLoop n l) := by
  induction n generalizing l with
  | zero => simp [digitsLoop, Advance]
  | succ n ih =>
    unfold digitsLoop
    split
    · simp [Advance]
    · rename_i h0
      split
      · simp [Advance]
      · have := (ih l.next).le
        have := measure_next_lt l h0
        right; omega

theorem quotedLoop_le (q : Rune) (n : Nat) (l : Lex) :
    (quotedLoop q n l).1.measure ≤ l.measure := by
  induction n generalizing l with
  | zero => simp [quotedLoop]
  | succ n ih =>
    unfold quotedLoop
    dsimp only
    split
    · simp
    · split
      · split
        · have := ih l.next.next
          have := measure_next_le l.next
          have := measure_next_le l
          omega
        · exact measure_next_le l
      · have := ih l.next
        have := measure_next_le l
        omega

theorem lettersLoop_le (n : Nat) (l : Lex) : (lettersLoop n l).measure ≤ l.measure := by
  induction n generalizing l with
  | zero => simp [lettersLoop]
  | succ n ih =>
    unfold lettersLoop
    split
    · have := ih l.next
      have := measure_next_le l
      omega
    · simp

theorem decimalsLoop_le (n : Nat) (l : Lex) : (decimalsLoop n l).measure ≤ l.measure := by
  induction n generalizing l with
  | zero => simp [decimalsLoop]
  | succ n ih =>
    unfold decimalsLoop
    split
    · have := ih l.next
      have := measure_next_le l
      omega
    · simp

theorem argLoop_le (n : Nat) (l : Lex) : (argLoop n l).measure ≤ l.measure := by
  induction n generalizing l with
  | zero => simp [argLoop]
  | succ n ih =>
    unfold argLoop
    split
    · have := ih l.next
      have := measure_next_le l
      omega
    · simp

theorem skipWhitespaceAux_le (n : Nat) (l : Lex) :
    (skipWhitespaceAux n l).measure ≤ l.measure := by
  induction n generalizing l with
  | zero => simp [skipWhitespaceAux]
  | succ n ih =>
    unfold skipWhitespaceAux
    split
    · simp
    · dsimp only
      have := measure_next_le l
      split
      · exact this
      · have := ih l.next
        omega

/-- Rank of a scan function: how many more calls can happen without consuming input. -/
def Scan.rank : Scan → Nat
  | .ref | .func | .quotedPlain | .funcArgQuoted => 0
  | .plain => 1
  | .index | .funcName | .funcArgs => 2

/-- Lexer states in which a scan function is entered. -/
def Scan.Pre : Scan → Lex → Prop
  | .ref, l | .func, l | .quotedPlain, l | .funcArgQuoted, l => l.rune ≠ eofRune
  | _, _ => True

/-- Every step decreases `3 * measure + rank`. -/
theorem scanStep_decreases (L : GoLib) (st : Scan) (l : Lex) (hp : st.Pre l)
    {l' : Lex} {toks : List Token} {st' : Scan} (h : scanStep L st l = (l', toks, some st')) :
    3 * l'.measure + st'.rank < 3 * l.measure + st.rank ∧ st'.Pre l' := by
  cases st with
  | plain =>
    simp only [scanStep, scanPlain] at h
    have hpl := plainLoop_prog l.startToken.fuel l.startToken
    generalize hpp : plainLoop l.startToken.fuel l.startToken = pl at h hpl
    obtain ⟨pl, stop⟩ := pl
    dsimp only at h hpl
    have hle := hpl.1.le
    rw [measure_startToken] at hle
    cases stop
    · simp at h; obtain ⟨rfl, _, rfl⟩ := h
      exact ⟨by simp [Scan.rank]; omega, hpl.2 (by simp)⟩
    · simp at h; obtain ⟨rfl, _, rfl⟩ := h
      exact ⟨by simp [Scan.rank]; omega, hpl.2 (by simp)⟩
    · simp at h; obtain ⟨rfl, _, rfl⟩ := h
      exact ⟨by simp [Scan.rank]; omega, hpl.2 (by simp)⟩
    · simp only at h
      split at h
      · rename_i ha
        simp at h; obtain ⟨rfl, _, rfl⟩ := h
        refine ⟨?_, trivial⟩
        rcases hpl.1 with he | hlt
        · subst he; simp [advanced, startToken] at ha
        · rw [measure_startToken] at hlt; simp [Scan.rank]; omega
      · simp at h
  | ref =>
    simp [scanStep, scanRef] at h
    obtain ⟨rfl, _, rfl⟩ := h
    have := measure_next_lt l.startToken hp
    rw [measure_startToken] at this
    exact ⟨by simp [Scan.rank]; omega, trivial⟩
  | index =>
    simp only [scanStep, scanIndex] at h
    split at h
    · simp at h; obtain ⟨rfl, _, rfl⟩ := h
      have := (digitsLoop_prog l.startToken.fuel l.startToken).le
      rw [measure_startToken] at this
      exact ⟨by simp [Scan.rank]; omega, trivial⟩
    · simp at h; obtain ⟨rfl, _, rfl⟩ := h
      exact ⟨by simp [Scan.rank], trivial⟩
  | quotedPlain =>
    simp [scanStep, scanQuotedPlain] at h
    obtain ⟨rfl, _, rfl⟩ := h
    have := quotedLoop_le l.rune l.next.fuel l.next
    have := measure_next_lt l hp
    exact ⟨by simp [Scan.rank]; omega, trivial⟩
  | func =>
    simp [scanStep, scanFunc] at h
    obtain ⟨rfl, _, rfl⟩ := h
    have := measure_next_lt l.startToken hp
    rw [measure_startToken] at this
    exact ⟨by simp [Scan.rank]; omega, trivial⟩
  | funcName =>
    simp only [scanStep, scanFuncName] at h
    have h1 := lettersLoop_le l.startToken.fuel l.startToken
    rw [measure_startToken] at h1
    generalize lettersLoop l.startToken.fuel l.startToken = l1 at h h1
    split at h
    · simp at h; obtain ⟨rfl, _, rfl⟩ := h
      exact ⟨by simp [Scan.rank]; omega, trivial⟩
    · have h2 := decimalsLoop_le l1.startToken.fuel l1.startToken
      rw [measure_startToken] at h2
      generalize decimalsLoop l1.startToken.fuel l1.startToken = l2 at h h2
      split at h
      · simp at h; obtain ⟨rfl, _, rfl⟩ := h
        exact ⟨by simp [Scan.rank]; omega, trivial⟩
      · split at h
        · rename_i hr
          simp at h; obtain ⟨rfl, _, rfl⟩ := h
          have := measure_next_lt l2 (by rw [hr]; decide)
          exact ⟨by simp [Scan.rank]; omega, trivial⟩
        · simp at h; obtain ⟨rfl, _, rfl⟩ := h
          exact ⟨by simp [Scan.rank]; omega, trivial⟩
  | funcArgs =>
    simp only [scanStep, scanFuncArgs] at h
    have h1 : l.skipWhitespace.startToken.measure ≤ l.measure := by
      rw [measure_startToken]; exact skipWhitespaceAux_le _ _
    generalize l.skipWhitespace.startToken = l1 at h h1
    split at h
    · simp at h; obtain ⟨rfl, _, rfl⟩ := h
      exact ⟨by simp [Scan.rank]; omega, trivial⟩
    · rename_i h0
      have hn := measure_next_lt l1 h0
      split at h
      · simp at h; obtain ⟨rfl, _, rfl⟩ := h
        exact ⟨by simp [Scan.rank]; omega, trivial⟩
      · rename_i hc
        split at h
        · simp at h; obtain ⟨rfl, _, rfl⟩ := h
          exact ⟨by simp [Scan.rank]; omega, trivial⟩
        · rename_i hr
          split at h
          · simp at h; obtain ⟨rfl, _, rfl⟩ := h
            exact ⟨by simp [Scan.rank]; omega, h0⟩
          · have h2 : (argLoop l1.fuel l1).measure < l1.measure := by
              have hf : l1.fuel = (l1.rest.length + 1) + 1 := rfl
              rw [hf]
              unfold argLoop
              rw [if_pos ⟨h0, hc, hr⟩]
              have := argLoop_le (l1.rest.length + 1) l1.next
              omega
            generalize argLoop l1.fuel l1 = l2 at h h2
            split at h
            · split at h
              · simp at h; obtain ⟨rfl, _, rfl⟩ := h
                exact ⟨by simp [Scan.rank]; omega, trivial⟩
              · split at h
                · simp at h; obtain ⟨rfl, _, rfl⟩ := h
                  exact ⟨by simp [Scan.rank]; omega, trivial⟩
                · split at h <;>
                  · simp at h; obtain ⟨rfl, _, rfl⟩ := h
                    exact ⟨by simp [Scan.rank]; omega, trivial⟩
            · simp at h; obtain ⟨rfl, _, rfl⟩ := h
              exact ⟨by simp [Scan.rank]; omega, trivial⟩
  | funcArgQuoted =>
    simp only [scanStep, scanFuncArgQuoted] at h
    have h1 := quotedLoop_le l.rune l.next.fuel l.next
    have h2 := measure_next_lt l hp
    generalize quotedLoop l.rune l.next.fuel l.next = p at h h1
    obtain ⟨l1, closed⟩ := p
    dsimp only at h h1
    split at h
    · simp at h; obtain ⟨rfl, _, rfl⟩ := h
      exact ⟨by simp [Scan.rank]; omega, trivial⟩
    · simp at h; obtain ⟨rfl, _, rfl⟩ := h
      exact ⟨by simp [Scan.rank]; omega, trivial⟩

theorem scanRun_isSome (L : GoLib) (n : Nat) (st : Scan) (l : Lex) (hp : st.Pre l)
    (hn : 3 * l.measure + st.rank < n) : (scanRun L n st l).isSome := by
  induction n generalizing st l with
  | zero => omega
  | succ n ih =>
    unfold scanRun
    split
    · simp
    · rename_i l' toks st' h
      have := scanStep_decreases L st l hp h
      have := ih st' l' this.2 (by omega)
      simpa using this

theorem scanAll_isSome (L : GoLib) (s : Str) : (scanAll L s).isSome := by
  apply scanRun_isSome
  · trivial
  · have : (Lex.init s).measure ≤ s.length + 1 := by
      cases s <;> simp [Lex.measure, Lex.init]
    simp only [Scan.rank]
    omega

/-- More fuel does not change the result. -/
theorem scanRun_mono (L : GoLib) {n m : Nat} (h : n ≤ m) {st : Scan} {l : Lex}
    {ts : List Token} (hr : scanRun L n st l = some ts) : scanRun L m st l = some ts := by
  induction n generalizing m st l ts with
  | zero => simp [scanRun] at hr
  | succ n ih =>
    obtain ⟨m, rfl⟩ : ∃ k, m = k + 1 := ⟨m - 1, by omega⟩
    unfold scanRun at hr ⊢
    split at hr
    · exact hr
    · rename_i l' toks st' h1
      simp only [Option.map_eq_some_iff] at hr ⊢
      obtain ⟨a, ha, rfl⟩ := hr
      exact ⟨a, ih (by omega) ha, rfl⟩

/-- To know `scanAll` it is enough to run the scanner with any amount of fuel. -/
theorem scanAll_eq {L : GoLib} {s : Str} {ts : List Token} {n : Nat}
    (h : scanRun L n .plain (Lex.init s) = some ts) : scanAll L s = some ts := by
  obtain ⟨ts', h'⟩ := Option.isSome_iff_exists.mp (scanAll_isSome L s)
  have a := scanRun_mono L (Nat.le_max_left n (3 * (s.length + 1) + 3)) h
  have b := scanRun_mono L (Nat.le_max_right n (3 * (s.length + 1) + 3)) h'
  rw [h', ← b, a]

/-! ## The parser's loops -/

theorem PState.next_toks_le (p : PState) : p.next.toks.length ≤ p.toks.length := by
  unfold PState.next; split <;> simp_all

theorem argsLoop_ne_outOfFuel (L : GoLib) (n : Nat) (p : PState) (acc : List CallArg)
    (h : p.toks.length < n) :
    argsLoop L n p acc ≠ .error .outOfFuel ∧
    ∀ r q, argsLoop L n p acc = .ok (r, q) → q.toks.length ≤ p.toks.length := by
  induction n generalizing p acc with
  | zero => omega
  | succ n ih =>
    unfold argsLoop
    dsimp only
    have h1 := p.next_toks_le
    have h2 := p.next.next_toks_le
    split
    · split
      · simp
      · constructor
        · simp
        · intro r q hq; simp at hq; obtain ⟨_, rfl⟩ := hq; exact h1
    · rename_i hlit
      split
      · simp
      · split
        · rename_i e he
          constructor
          · intro hc
            simp at hc; subst hc
            split at he <;> try (simp at he; done)
            split at he <;> simp at he
          · simp
        · split
          · rename_i a heq hcomma
            have hlt : p.next.next.toks.length < p.toks.length := by
              rcases hp : p.toks with _ | ⟨t, ts⟩
              · exfalso
                have : p.next = p := by unfold PState.next; rw [hp]
                rw [this] at hlit hcomma
                rw [this] at hcomma
                simp [hcomma] at hlit
              · have : p.next.toks = ts := by unfold PState.next; rw [hp]
                rw [this] at h2
                simp; omega
            have := ih p.next.next (acc ++ [a]) (by omega)
            refine ⟨this.1, fun r q hq => ?_⟩
            have := this.2 r q hq
            omega
          · split
            · simp
            · constructor
              · simp
              · intro r q hq; simp at hq; obtain ⟨_, rfl⟩ := hq; omega

theorem bindVarExpr_ne_outOfFuel (p : PState) :
    bindVarExpr p ≠ .error .outOfFuel ∧
    ∀ r q, bindVarExpr p = .ok (r, q) → q.toks.length ≤ p.toks.length := by
  have key : ∀ (p : PState) (t : Style),
      (if p.next.cur.typ ≠ .literal then (Except.error (.unexpectedToken p.next.cur.typ) : Except PErr (Expr × PState))
        else if p.next.cur.kind ≠ .number then .error .wantBindvarIndex
        else match parseUint p.next.cur.lit with
          | none => .error (.badUint p.next.cur.lit)
          | some v => .ok (.bindVar t (intOfUint64 v), p.next)) ≠ .error .outOfFuel ∧
      ∀ r q, (if p.next.cur.typ ≠ .literal then (Except.error (.unexpectedToken p.next.cur.typ) : Except PErr (Expr × PState))
        else if p.next.cur.kind ≠ .number then .error .wantBindvarIndex
        else match parseUint p.next.cur.lit with
          | none => .error (.badUint p.next.cur.lit)
          | some v => .ok (.bindVar t (intOfUint64 v), p.next)) = .ok (r, q) →
          q.toks.length ≤ p.toks.length := by
    intro p t
    split
    · simp
    · split
      · simp
      · split
        · simp
        · constructor
          · simp
          · intro r q hq; simp at hq; obtain ⟨_, rfl⟩ := hq; exact p.next_toks_le
  unfold bindVarExpr
  dsimp only
  generalize hp' : (if p.cur.lit = lit "$" ∨ p.cur.lit = lit "?" then
      ({ p with bindVarIndex := p.bindVarIndex + 1
                bindVarStyle := if p.bindVarStyle = 0 then
                  (if p.cur.lit = lit "$" then dollar else if p.cur.lit = lit "?" then question else 0)
                  else p.bindVarStyle } : PState)
    else p) = p'
  have htk : p'.toks = p.toks := by rw [← hp']; split <;> rfl
  rw [← htk]
  generalize (if p.cur.lit = lit "$" then dollar else if p.cur.lit = lit "?" then question else 0 : Style) = t
  split
  · simp
  · split
    · exact key p' _
    · constructor
      · simp
      · intro r q hq; simp at hq; obtain ⟨_, rfl⟩ := hq; simp

theorem funcExpr_ne_outOfFuel (L : GoLib) (p : PState) :
    funcExpr L p ≠ .error .outOfFuel ∧
    ∀ r q, funcExpr L p = .ok (r, q) → q.toks.length ≤ p.toks.length := by
  have h1 := p.next_toks_le
  have h2 := p.next.next_toks_le
  unfold funcExpr
  dsimp only
  split
  · simp
  · split
    · have := argsLoop_ne_outOfFuel L (p.next.next.toks.length + 2) p.next.next [] (by omega)
      split
      · rename_i e he
        rw [he] at this
        refine ⟨?_, by simp⟩
        intro hc; simp at hc; subst hc; exact this.1 rfl
      · rename_i args q he
        refine ⟨by simp, ?_⟩
        intro r q' hq; simp at hq; obtain ⟨_, rfl⟩ := hq
        have := this.2 _ _ he
        omega
    · split
      · simp
      · split
        · simp
        · refine ⟨by simp, ?_⟩
          intro r q' hq; simp at hq; obtain ⟨_, rfl⟩ := hq
          omega
    · refine ⟨by simp, ?_⟩
      intro r q' hq; simp at hq; obtain ⟨_, rfl⟩ := hq
      omega

theorem parseLoop_ne_outOfFuel (L : GoLib) (n : Nat) (p : PState) (acc : List Expr)
    (h : p.toks.length < n) : parseLoop L n p acc ≠ .error .outOfFuel := by
  induction n generalizing p acc with
  | zero => omega
  | succ n ih =>
    unfold parseLoop
    split
    · simp
    · rename_i t ts hp
      have hl : p.next.toks.length + 1 = p.toks.length := by
        unfold PState.next; rw [hp]; simp
      dsimp only
      split
      · exact ih _ _ (by omega)
      · have := bindVarExpr_ne_outOfFuel p.next
        split
        · rename_i e he; rw [he] at this; simpa using this.1
        · rename_i d q he
          have := this.2 _ _ he
          exact ih _ _ (by omega)
      · have := funcExpr_ne_outOfFuel L p.next
        split
        · rename_i e he; rw [he] at this; simpa using this.1
        · rename_i d q he
          have := this.2 _ _ he
          exact ih _ _ (by omega)
      · exact ih _ _ (by omega)
      · simp

/-- The model's fuel is never exhausted: parsing terminates on every input. -/
theorem parse_ne_outOfFuel (L : GoLib) (s : Str) : parse L s ≠ .error .outOfFuel := by
  unfold parse
  have := scanAll_isSome L s
  split
  · rename_i h; rw [h] at this; simp at this
  · exact parseLoop_ne_outOfFuel L _ _ _ (by simp)

end Sqlf
