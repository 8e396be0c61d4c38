import Verif.Proofs.Scan
/-!
# String arguments in a template are shorter than the template
-/

namespace Sqlf

/-- Bytes of the current token and of the remaining input. -/
def Lex.size (l : Lex) : Nat := l.tok.length + l.rest.length

open Lex

theorem size_next (l : Lex) : l.next.size = l.size := by
  unfold Lex.next Lex.size
  split
  · rename_i h; simp [h]
  · rename_i b t h
    simp only [List.length_append, List.length_take, List.length_drop]
    omega

theorem size_startToken (l : Lex) : l.startToken.size ≤ l.size := by
  simp [Lex.size, Lex.startToken]

theorem tok_le_size (l : Lex) : l.tok.length ≤ l.size := by simp [Lex.size]

theorem size_plainLoop (n : Nat) (l : Lex) : (plainLoop n l).1.size = l.size := by
  induction n generalizing l with
  | zero => rfl
  | succ n ih =>
    unfold plainLoop
    dsimp only
    repeat' split
    all_goals first | rfl | simp [ih, size_next]

theorem size_digitsLoop (n : Nat) (l : Lex) : (digitsLoop n l).size = l.size := by
  induction n generalizing l with
  | zero => rfl
  | succ n ih =>
    unfold digitsLoop
    repeat' split
    all_goals first | rfl | simp [ih, size_next]

theorem size_quotedLoop (q : Rune) (n : Nat) (l : Lex) : (quotedLoop q n l).1.size = l.size := by
  induction n generalizing l with
  | zero => rfl
  | succ n ih =>
    unfold quotedLoop
    dsimp only
    repeat' split
    all_goals first | rfl | simp [ih, size_next]

theorem size_lettersLoop (n : Nat) (l : Lex) : (lettersLoop n l).size = l.size := by
  induction n generalizing l with
  | zero => rfl
  | succ n ih =>
    unfold lettersLoop
    repeat' split
    all_goals first | rfl | simp [ih, size_next]

theorem size_decimalsLoop (n : Nat) (l : Lex) : (decimalsLoop n l).size = l.size := by
  induction n generalizing l with
  | zero => rfl
  | succ n ih =>
    unfold decimalsLoop
    repeat' split
    all_goals first | rfl | simp [ih, size_next]

theorem size_argLoop (n : Nat) (l : Lex) : (argLoop n l).size = l.size := by
  induction n generalizing l with
  | zero => rfl
  | succ n ih =>
    unfold argLoop
    repeat' split
    all_goals first | rfl | simp [ih, size_next]

theorem size_skipWhitespaceAux (n : Nat) (l : Lex) : (skipWhitespaceAux n l).size = l.size := by
  induction n generalizing l with
  | zero => rfl
  | succ n ih =>
    unfold skipWhitespaceAux
    dsimp only
    repeat' split
    all_goals first | rfl | simp [ih, size_next]

/-- The tokens are no longer than `n`. -/
def Bounded (n : Nat) (ts : List Token) : Prop := ∀ t ∈ ts, t.lit.length ≤ n

theorem bounded_emit {l : Lex} {n : Nat} {t : TokType} {k : LitKind} {b : Bool} (h : l.size ≤ n) :
    (l.emit t k b).lit.length ≤ n := Nat.le_trans (tok_le_size l) h

theorem bounded_nil {n : Nat} : Bounded n [] := by intro t ht; simp at ht

theorem bounded_one {l : Lex} {n : Nat} {t : TokType} {k : LitKind} {b : Bool} (h : l.size ≤ n) :
    Bounded n [l.emit t k b] := by
  intro t ht; simp at ht; subst ht; exact bounded_emit h

theorem scanStep_bounded (L : GoLib) (n : Nat) (st : Scan) (l : Lex) (h : l.size ≤ n) :
    (scanStep L st l).1.size ≤ n ∧ Bounded n (scanStep L st l).2.1 := by
  have hs := Nat.le_trans (size_startToken l) h
  cases st with
  | plain =>
    simp only [scanStep, scanPlain]
    have h1 := size_plainLoop l.startToken.fuel l.startToken
    generalize plainLoop l.startToken.fuel l.startToken = p at h1
    obtain ⟨l1, stop⟩ := p
    dsimp only at h1 ⊢
    have h2 : l1.size ≤ n := by omega
    have h3 : Bounded n (if l1.advanced = true then [l1.emit .plain .string false] else []) := by
      split
      · intro t ht; simp at ht; subst ht; exact bounded_emit h2
      · intro t ht; simp at ht
    cases stop
    · exact ⟨h2, h3⟩
    · exact ⟨h2, h3⟩
    · exact ⟨h2, by intro t ht; simp at ht⟩
    · dsimp only
      split
      · rename_i ha
        rw [if_pos ha] at h3
        exact ⟨h2, by simpa [ha] using h3⟩
      · exact ⟨h2, by intro t ht; simp at ht; subst ht; exact bounded_emit h2⟩
  | ref =>
    simp only [scanStep, scanRef]
    have h2 : l.startToken.next.size ≤ n := by rw [size_next]; exact hs
    exact ⟨h2, by intro t ht; simp at ht; subst ht; exact bounded_emit h2⟩
  | index =>
    simp only [scanStep, scanIndex]
    split
    · have h2 : (digitsLoop l.startToken.fuel l.startToken).size ≤ n := by
        rw [size_digitsLoop]; exact hs
      exact ⟨h2, by intro t ht; simp at ht; subst ht; exact bounded_emit h2⟩
    · exact ⟨h, by intro t ht; simp at ht⟩
  | quotedPlain =>
    simp only [scanStep, scanQuotedPlain]
    have h2 : (quotedLoop l.rune l.next.fuel l.next).1.size ≤ n := by
      rw [size_quotedLoop, size_next]; exact h
    exact ⟨h2, by intro t ht; simp at ht; subst ht; exact bounded_emit h2⟩
  | func =>
    simp only [scanStep, scanFunc]
    have h2 : l.startToken.next.size ≤ n := by rw [size_next]; exact hs
    exact ⟨h2, by intro t ht; simp at ht; subst ht; exact bounded_emit h2⟩
  | funcName =>
    simp only [scanStep, scanFuncName]
    have h1 : (lettersLoop l.startToken.fuel l.startToken).size ≤ n := by
      rw [size_lettersLoop]; exact hs
    generalize lettersLoop l.startToken.fuel l.startToken = l1 at h1
    split
    · exact ⟨h1, by intro t ht; simp at ht⟩
    · have h2 : (decimalsLoop l1.startToken.fuel l1.startToken).size ≤ n := by
        rw [size_decimalsLoop]; exact Nat.le_trans (size_startToken l1) h1
      generalize decimalsLoop l1.startToken.fuel l1.startToken = l2 at h2
      split
      · refine ⟨h2, ?_⟩
        intro t ht
        simp at ht
        rcases ht with rfl | rfl
        · exact bounded_emit h1
        · exact bounded_emit h2
      · split
        · have h3 : l2.next.size ≤ n := by rw [size_next]; exact h2
          refine ⟨h3, ?_⟩
          intro t ht
          simp at ht
          rcases ht with rfl | rfl
          · exact bounded_emit h1
          · exact bounded_emit h3
        · exact ⟨h2, by intro t ht; simp at ht; subst ht; exact bounded_emit h1⟩
  | funcArgs =>
    simp only [scanStep, scanFuncArgs]
    have h1 : l.skipWhitespace.startToken.size ≤ n := by
      refine Nat.le_trans (size_startToken _) ?_
      rw [skipWhitespace, size_skipWhitespaceAux]; exact h
    generalize l.skipWhitespace.startToken = l1 at h1
    have h3 : l1.next.size ≤ n := by rw [size_next]; exact h1
    have h2 : (argLoop l1.fuel l1).size ≤ n := by rw [size_argLoop]; exact h1
    generalize argLoop l1.fuel l1 = l2 at h2
    repeat' split
    all_goals
      first
      | exact ⟨h1, bounded_nil⟩
      | exact ⟨h2, bounded_nil⟩
      | exact ⟨h3, bounded_one h3⟩
      | exact ⟨h2, bounded_one h2⟩
  | funcArgQuoted =>
    simp only [scanStep, scanFuncArgQuoted]
    have h2 : (quotedLoop l.rune l.next.fuel l.next).1.size ≤ n := by
      rw [size_quotedLoop, size_next]; exact h
    generalize quotedLoop l.rune l.next.fuel l.next = p at h2
    obtain ⟨l1, c⟩ := p
    dsimp only at h2 ⊢
    split <;> exact ⟨h2, by intro t ht; simp at ht; subst ht; exact bounded_emit h2⟩

theorem scanRun_bounded (L : GoLib) (m n : Nat) (st : Scan) (l : Lex) (h : l.size ≤ n)
    {ts : List Token} (hr : scanRun L m st l = some ts) : Bounded n ts := by
  induction m generalizing st l ts with
  | zero => simp [scanRun] at hr
  | succ m ih =>
    have hb := scanStep_bounded L n st l h
    unfold scanRun at hr
    split at hr
    · rename_i hs
      rw [hs] at hb
      simp at hr; subst hr; exact hb.2
    · rename_i l' toks st' hs
      rw [hs] at hb
      simp only [Option.map_eq_some_iff] at hr
      obtain ⟨a, ha, rfl⟩ := hr
      intro t ht
      rcases List.mem_append.1 ht with ht | ht
      · exact hb.2 t ht
      · exact ih st' l' hb.1 ha t ht

theorem scanAll_bounded {L : GoLib} {s : Str} {ts : List Token} (h : scanAll L s = some ts) :
    Bounded s.length ts :=
  scanRun_bounded L _ _ .plain (Lex.init s) (by simp [Lex.size, Lex.init]) h

theorem unescapeQuotes_length (s : Str) : (unescapeQuotes s).length ≤ s.length := by
  induction s using unescapeQuotes.induct with
  | case1 => simp [unescapeQuotes]
  | case2 x => simp [unescapeQuotes]
  | case3 x y t h ih => unfold unescapeQuotes; rw [if_pos h]; simp; omega
  | case4 x y t h ih => unfold unescapeQuotes; rw [if_neg h]; simp at ih ⊢; omega

/-- Arguments as the parser makes them, with strings shorter than `n`. -/
def ParsedArgs (n : Nat) (as : List CallArg) : Prop :=
  (∀ t, CallArg.str t ∈ as → t.length < n) ∧ ∀ i, CallArg.int i ∉ as

/-- Arguments as the parser or `#join` makes them. -/
def ShortArgs (n : Nat) (as : List CallArg) : Prop := ParsedArgs n as ∨ ∃ i, as = [.int i]

def Short (n : Nat) (es : List Expr) : Prop := ∀ name as, Expr.call name as ∈ es → ShortArgs n as

theorem next_bounded {n : Nat} {p : PState} (h : Bounded n p.toks) (hc : p.cur.lit.length ≤ n) :
    Bounded n p.next.toks ∧ p.next.cur.lit.length ≤ n := by
  unfold PState.next
  split
  · exact ⟨h, hc⟩
  · rename_i t ts ht
    rw [ht] at h
    exact ⟨fun x hx => h x (by simp [hx]), h t (by simp)⟩

theorem argsLoop_short (L : GoLib) {n : Nat} (hn : 0 < n) (m : Nat) (p : PState) (acc : List CallArg)
    (h : Bounded n p.toks) (hc : p.cur.lit.length ≤ n) (ha : ParsedArgs n acc)
    {as : List CallArg} {q : PState} (hr : argsLoop L m p acc = .ok (as, q)) :
    ParsedArgs n as ∧ Bounded n q.toks ∧ q.cur.lit.length ≤ n := by
  induction m generalizing p acc with
  | zero => simp [argsLoop] at hr
  | succ m ih =>
    obtain ⟨h1, hc1⟩ := next_bounded h hc
    obtain ⟨h2, hc2⟩ := next_bounded h1 hc1
    unfold argsLoop at hr
    dsimp only at hr
    split at hr
    · split at hr
      · simp at hr
      · simp at hr; obtain ⟨rfl, rfl⟩ := hr; exact ⟨ha, h1, hc1⟩
    · split at hr
      · simp at hr
      · split at hr
        · simp at hr
        · rename_i a hax
          have ha' : ParsedArgs n (acc ++ [a]) := by
            refine ⟨?_, ?_⟩
            rotate_left
            · intro i hi
              rcases List.mem_append.1 hi with hi | hi
              · exact ha.2 i hi
              · simp at hi
                subst hi
                split at hax
                · simp at hax
                · simp at hax
                · split at hax <;> simp at hax
                · simp at hax
            intro t ht
            rcases List.mem_append.1 ht with ht | ht
            · exact ha.1 t ht
            · simp at ht
              subst ht
              split at hax
              · simp at hax
              · simp at hax
              · split at hax <;> simp at hax
              · simp at hax
                have hl := unescapeQuotes_length (List.drop 1 p.next.cur.lit).dropLast
                rw [← hax, ← List.drop_one]
                rw [List.length_dropLast, List.length_drop] at hl
                omega
          split at hr
          · exact ih p.next.next _ h2 hc2 ha' hr
          · split at hr
            · simp at hr
            · simp at hr; obtain ⟨rfl, rfl⟩ := hr; exact ⟨ha', h2, hc2⟩

theorem short_append {n : Nat} {xs ys : List Expr} (hx : Short n xs) (hy : Short n ys) :
    Short n (xs ++ ys) := by
  intro name as h
  rcases List.mem_append.1 h with h | h
  · exact hx _ _ h
  · exact hy _ _ h

theorem bindVarExpr_short {n : Nat} {p : PState} (h : Bounded n p.toks)
    (hc : p.cur.lit.length ≤ n) {d : Expr} {q : PState} (hr : bindVarExpr p = .ok (d, q)) :
    Short n [d] ∧ Bounded n q.toks ∧ q.cur.lit.length ≤ n := by
  have hb : ∀ t i, Short n [.bindVar t i] := by intro t i name as hm; simp at hm
  unfold bindVarExpr at hr
  dsimp only at hr
  generalize hp' : (if p.cur.lit = lit "$" ∨ p.cur.lit = lit "?" then
      ({ p with bindVarIndex := p.bindVarIndex + 1
                bindVarStyle := if p.bindVarStyle = 0 then
                  (if p.cur.lit = lit "$" then dollar else if p.cur.lit = lit "?" then question else 0)
                  else p.bindVarStyle } : PState)
    else p) = p' at hr
  have htk : p'.toks = p.toks ∧ p'.cur = p.cur := by rw [← hp']; split <;> exact ⟨rfl, rfl⟩
  generalize (if p.cur.lit = lit "$" then dollar else if p.cur.lit = lit "?" then question else 0 : Style) = t at hr
  have hx := next_bounded (p := p') (by rw [htk.1]; exact h) (by rw [htk.2]; exact hc)
  split at hr
  · simp at hr
  · split at hr
    · split at hr
      · simp at hr
      · split at hr
        · simp at hr
        · split at hr
          · simp at hr
          · simp at hr; obtain ⟨rfl, rfl⟩ := hr; exact ⟨hb _ _, hx⟩
    · simp at hr; obtain ⟨rfl, rfl⟩ := hr
      exact ⟨hb _ _, by rw [htk.1]; exact h, by rw [htk.2]; exact hc⟩

theorem funcExpr_short (L : GoLib) {n : Nat} (hn : 0 < n) {p : PState} (h : Bounded n p.toks)
    (hc : p.cur.lit.length ≤ n) {ds : List Expr} {q : PState} (hr : funcExpr L p = .ok (ds, q)) :
    Short n ds ∧ Bounded n q.toks ∧ q.cur.lit.length ≤ n := by
  obtain ⟨h1, hc1⟩ := next_bounded h hc
  obtain ⟨h2, hc2⟩ := next_bounded h1 hc1
  unfold funcExpr at hr
  dsimp only at hr
  split at hr
  · simp at hr
  · split at hr
    · split at hr
      · simp at hr
      · rename_i args q' hq
        simp at hr; obtain ⟨rfl, rfl⟩ := hr
        have := argsLoop_short L hn _ _ _ h2 hc2 ⟨by intro t ht; simp at ht, by intro t ht; simp at ht⟩ hq
        refine ⟨?_, this.2⟩
        intro name as hm
        simp at hm
        rw [hm.2]; exact .inl this.1
    · split at hr
      · simp at hr
      · split at hr
        · simp at hr
        · simp at hr; obtain ⟨rfl, rfl⟩ := hr
          refine ⟨?_, h2, hc2⟩
          intro name as hm
          simp at hm
          rw [hm.2]
          exact .inl ⟨by intro t ht; simp at ht, by intro t ht; simp at ht⟩
    · simp at hr; obtain ⟨rfl, rfl⟩ := hr
      refine ⟨?_, h2, hc2⟩
      intro name as hm
      simp at hm

theorem parseLoop_short (L : GoLib) {n : Nat} (hn : 0 < n) (m : Nat) (p : PState) (acc : List Expr)
    (h : Bounded n p.toks) (hc : p.cur.lit.length ≤ n) (ha : Short n acc)
    {es : List Expr} (hr : parseLoop L m p acc = .ok es) : Short n es := by
  induction m generalizing p acc with
  | zero => simp [parseLoop] at hr
  | succ m ih =>
    obtain ⟨h1, hc1⟩ := next_bounded h hc
    unfold parseLoop at hr
    split at hr
    · simp at hr; subst hr; exact ha
    · dsimp only at hr
      split at hr
      · exact ih _ _ h1 hc1 ha hr
      · split at hr
        · simp at hr
        · rename_i d q hq
          have := bindVarExpr_short h1 hc1 hq
          exact ih _ _ this.2.1 this.2.2 (short_append ha this.1) hr
      · split at hr
        · simp at hr
        · rename_i d q hq
          have := funcExpr_short L hn h1 hc1 hq
          exact ih _ _ this.2.1 this.2.2 (short_append ha this.1) hr
      · exact ih _ _ h1 hc1 (short_append ha (by intro name as hm; simp at hm)) hr
      · simp at hr

theorem parse_nil (L : GoLib) : parse L [] = .ok [] := rfl

/-- String arguments in a template are shorter than the template. -/
theorem parse_short {L : GoLib} {s : Str} {es : List Expr} (h : parse L s = .ok es) :
    Short s.length es := by
  cases s with
  | nil =>
    rw [parse_nil] at h
    simp at h; subst h
    intro name as hm; simp at hm
  | cons b s =>
    unfold parse at h
    split at h
    · simp at h
    · rename_i ts hts
      exact parseLoop_short L (by simp) _ _ _ (scanAll_bounded hts) (by simp)
        (by intro name as hm; simp at hm) h

end Sqlf
