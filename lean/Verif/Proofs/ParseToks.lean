import Verif.Proofs.RoundTrip
/-!
# Parsing the tokens of a rendered template
-/

namespace Sqlf

open Lex Spec

/-! ## `glue` -/

theorem glue_plain_nil (es : List Expr) : glue (.plain [] :: es) = glue es := by simp [glue]

theorem glue_congr {e : Expr} {xs ys : List Expr} (h : glue xs = glue ys) :
    glue (e :: xs) = glue (e :: ys) := by
  cases e <;> simp [glue, h]

theorem glue_plain_append (p s : Str) (es : List Expr) :
    glue (.plain (p ++ s) :: es) = glue (.plain p :: .plain s :: es) := by
  by_cases hp : p = []
  · subst hp; simp [glue]
  · by_cases hs : s = []
    · subst hs; simp [glue, hp]
    · simp only [glue, List.append_eq_nil_iff, hp, hs, false_and, if_false]
      generalize glue es = g
      cases g with
      | nil => simp
      | cons x g => cases x <;> simp

theorem glue_append_congr {xs ys : List Expr} (zs : List Expr) (h : glue xs = glue ys) :
    glue (zs ++ xs) = glue (zs ++ ys) := by
  induction zs with
  | nil => exact h
  | cons z zs ih => exact glue_congr ih

/-! ## Single tokens -/

theorem parseLoop_plain {L : GoLib} {n : Nat} {s : Str} {ts : List Token} {cur : Token} {k : Nat}
    {st : Style} {acc : List Expr} :
    parseLoop L (n + 1) ⟨tPlain s :: ts, cur, k, st⟩ acc =
      parseLoop L n ⟨ts, tPlain s, k, st⟩ (acc ++ [.plain s]) := rfl

theorem parseLoop_eof {L : GoLib} {n : Nat} {cur : Token} {k : Nat}
    {st : Style} {acc : List Expr} :
    parseLoop L (n + 2) ⟨[tEof], cur, k, st⟩ acc = .ok acc := rfl

/-- The expressions for pending plain text. -/
def flushE (p : Str) : List Expr := if p = [] then [] else [.plain p]

theorem glue_flushE (p : Str) (es : List Expr) : glue (flushE p ++ es) = glue (.plain p :: es) := by
  unfold flushE
  split
  · rename_i h; subst h; simp [glue]
  · rfl

theorem parseLoop_flush {L : GoLib} {n : Nat} {p : Str} {ts : List Token} {cur : Token} {k : Nat}
    {st : Style} {acc : List Expr} (h : (flush p ++ ts).length < n) :
    ∃ n' cur', ts.length < n' ∧ parseLoop L n ⟨flush p ++ ts, cur, k, st⟩ acc =
      parseLoop L n' ⟨ts, cur', k, st⟩ (acc ++ flushE p) := by
  unfold flush flushE at *
  by_cases hp : p = []
  · simp only [hp, if_true, List.nil_append, List.append_nil] at *
    exact ⟨n, cur, h, rfl⟩
  · simp only [hp, if_false, List.cons_append, List.nil_append, List.length_cons] at *
    cases n with
    | zero => omega
    | succ n => exact ⟨n, tPlain p, by omega, parseLoop_plain⟩

theorem parseUint_digits {n : Nat} (h : n < 2 ^ 64) : parseUint (natDigits n) = some n := by
  unfold parseUint
  rw [digitsVal_natDigits, natDigits_all]
  simp [natDigits_ne_nil n, h]

theorem bindVar_qmark {ts : List Token} {k : Nat} {q : Bool} :
    bindVarExpr ⟨ts, tRef [0x3F], k, if q then question else dollar⟩ =
      .ok (.bindVar question (k + 1 : Nat), ⟨ts, tRef [0x3F], k + 1, question⟩) := by
  cases q <;> rfl

theorem bindVar_dollar_eq {ts : List Token} {k : Nat} {s : Str} :
    bindVarExpr ⟨tNum s :: ts, tRef [0x24], k, dollar⟩ =
      match parseUint s with
      | none => .error (.badUint s)
      | some v => .ok (.bindVar dollar (intOfUint64 v), ⟨ts, tNum s, k + 1, dollar⟩) := rfl

theorem bindVar_dollar {ts : List Token} {k n : Nat} (hn : n < 2 ^ 63) :
    bindVarExpr ⟨tNum (natDigits n) :: ts, tRef [0x24], k, dollar⟩ =
      .ok (.bindVar dollar (n : Nat), ⟨ts, tNum (natDigits n), k + 1, dollar⟩) := by
  have h1 := parseUint_digits (n := n) (by omega)
  have h2 : intOfUint64 n = (n : Int) := by simp [intOfUint64, hn]
  rw [bindVar_dollar_eq, h1]
  simp only [h2]

theorem bindVar_dollar_mixed {ts : List Token} {k : Nat} :
    bindVarExpr ⟨ts, tRef [0x24], k, question⟩ = .error .mixedBindvarStyles := rfl

/-! ## Argument lists -/

theorem unescape_escape (s : Str) : unescapeQuotes (escapeQuotes s) = s := by
  induction s with
  | nil => rfl
  | cons b s ih =>
    unfold escapeQuotes
    split
    · rename_i h
      subst h
      simp [unescapeQuotes, ih]
    · rename_i h
      generalize he : escapeQuotes s = es at ih
      cases es with
      | nil => simp [unescapeQuotes] at *; exact ih
      | cons x t => simp [unescapeQuotes, h, ih]

theorem litTok_typ (a : Lit) : (litTok a).typ = .literal ∧ (litTok a).bad = false := by
  cases a <;> exact ⟨rfl, rfl⟩

/-- The value of a literal token. -/
theorem litTok_value (L : GoLib) (a : Lit) (ha : a.WF) :
    (match (litTok a).kind with
      | .nil => (.ok .nil : Except PErr CallArg)
      | .bool => .ok (.bool ((litTok a).lit = lit "true"))
      | .number =>
        match parseFloat L (litTok a).lit with
        | none => .error (.badFloat (litTok a).lit)
        | some x => .ok (.num x)
      | .string => .ok (.str (unescapeQuotes ((litTok a).lit.drop 1).dropLast))) =
    .ok a.value := by
  cases a with
  | num n =>
    have hn : n < 10 ^ 15 := ha
    simp [litTok, renderLit, parseFloat_digits L hn, Lit.value]
  | str s =>
    simp only [litTok, renderLit, Lit.value]
    have : (List.drop 1 ([0x27] ++ escapeQuotes s ++ [0x27])).dropLast = escapeQuotes s := by
      simp
    rw [this, unescape_escape]
  | bool b => cases b <;> rfl
  | nil => rfl

/-- The value of an argument token, as `argsLoop` computes it. -/
def tokValue (L : GoLib) (t : Token) : Except PErr CallArg :=
  match t.kind with
  | .nil => .ok .nil
  | .bool => .ok (.bool (t.lit = lit "true"))
  | .number =>
    match parseFloat L t.lit with
    | none => .error (.badFloat t.lit)
    | some x => .ok (.num x)
  | .string => .ok (.str (unescapeQuotes (t.lit.drop 1).dropLast))

theorem argsLoop_cons (L : GoLib) (n : Nat) (t : Token) (ts : List Token) (cur : Token) (k : Nat)
    (st : Style) (acc : List CallArg) :
    argsLoop L (n + 1) ⟨t :: ts, cur, k, st⟩ acc =
      if t.typ ≠ .literal then
        if t.typ ≠ .rparen then .error (.wantArgs t.typ) else .ok (acc, ⟨ts, t, k, st⟩)
      else if t.bad then .error (.badArgument t.lit)
      else match tokValue L t with
        | .error e => .error e
        | .ok a =>
          if (PState.mk ts t k st).next.cur.typ = .comma then
            argsLoop L n (PState.mk ts t k st).next (acc ++ [a])
          else if (PState.mk ts t k st).next.cur.typ ≠ .rparen then
            .error (.wantRparen (PState.mk ts t k st).next.cur.typ)
          else .ok (acc ++ [a], (PState.mk ts t k st).next) := rfl

theorem argsLoop_lit (L : GoLib) (a : Lit) (ha : a.WF) (n : Nat) (t : Token) (ts : List Token)
    (cur : Token) (k : Nat) (st : Style) (acc : List CallArg) :
    argsLoop L (n + 1) ⟨litTok a :: t :: ts, cur, k, st⟩ acc =
      if t.typ = .comma then argsLoop L n ⟨ts, t, k, st⟩ (acc ++ [a.value])
      else if t.typ ≠ .rparen then .error (.wantRparen t.typ)
      else .ok (acc ++ [a.value], ⟨ts, t, k, st⟩) := by
  have h1 := litTok_typ a
  have h2 : tokValue L (litTok a) = .ok a.value := litTok_value L a ha
  rw [argsLoop_cons, h1.1, h1.2, h2]
  simp only [PState.next, ne_eq, not_true_eq_false, if_false, Bool.false_eq_true]
  rfl

theorem argsLoop_args (L : GoLib) (args : List (Nat × Lit)) (ha : ∀ a ∈ args, a.2.WF)
    (n : Nat) (ts : List Token) (cur : Token) (k : Nat) (st : Style) (acc : List CallArg)
    (hn : args.length < n) :
    argsLoop L n ⟨argToks args ++ ts, cur, k, st⟩ acc =
      .ok (acc ++ args.map (·.2.value), ⟨ts, tRparen, k, st⟩) := by
  induction args generalizing n cur acc with
  | nil =>
    cases n with
    | zero => simp at hn
    | succ n => simp [argToks, argsLoop, PState.next, tRparen]
  | cons a args ih =>
    cases n with
    | zero => simp at hn
    | succ n =>
      have h1 := ha a (by simp)
      cases args with
      | nil =>
        simp only [argToks, List.cons_append, List.nil_append]
        rw [argsLoop_lit L a.2 h1]
        simp [tRparen]
      | cons b t =>
        simp only [argToks, List.cons_append]
        rw [argsLoop_lit L a.2 h1]
        simp only [tComma, if_true]
        rw [ih (fun x hx => ha x (by simp [hx])) n _ _ (by simp at hn; simpa using hn)]
        simp

theorem argToks_length (args : List (Nat × Lit)) : args.length ≤ (argToks args).length := by
  induction args with
  | nil => simp
  | cons a args ih =>
    cases args with
    | nil => simp [argToks]
    | cons b t => simp [argToks] at *; omega

/-! ## Whole templates -/

theorem toks_plain_head (X : List Token) (p : Str) (hp : p ≠ []) (is : List Item) :
    ∃ t ts, toksX X p is = tPlain t :: ts := by
  induction is generalizing p with
  | nil => exact ⟨p, X, by simp [toksX, flush, hp]⟩
  | cons i is ih =>
    cases i with
    | text s => exact ih (p ++ s) (by simp [hp])
    | esc b => exact ih (p ++ [b, b]) (by simp [hp])
    | quoted q s => exact ⟨_, _, rfl⟩
    | _ => simp only [toksX, flush, hp, if_false, List.cons_append]; exact ⟨_, _, rfl⟩

/-- After a bare function name the next token is the end or plain text. -/
theorem toks_after_func {name : Str} {is : List Item} (hw : WF is)
    (hf : FollowsItem (.func name) is) :
    toks [] is = [tEof] ∨ ∃ t ts, toks [] is = tPlain t :: ts := by
  cases is with
  | nil => left; rfl
  | cons i is =>
    right
    cases i with
    | text s =>
      have hs : s ≠ [] := by
        intro h; subst h; exact hw.2.1 rfl
      exact toks_plain_head _ _ (by simpa using hs) is
    | esc b => exact toks_plain_head _ _ (by simp) is
    | quoted q s => exact ⟨_, _, rfl⟩
    | _ => exact hf.elim

/-- Result of parsing: `m` is what is expected, `R` what the parser returns. -/
def Reads (m : Option (List Expr)) (acc : List Expr) (p : Str) (R : Except PErr (List Expr)) :
    Prop :=
  match m with
  | none => R = .error .mixedBindvarStyles
  | some es => ∃ es', R = .ok (acc ++ es') ∧ glue es' = glue (.plain p :: es)

/-- Glueing the result for the rest after the expressions of the first item. -/
theorem Reads.cons {m o : Option (List Expr)} {acc es0 : List Expr} {p : Str}
    {R : Except PErr (List Expr)} (h : Reads m (acc ++ flushE p ++ es0) [] R)
    (ho : o = m.map (es0 ++ ·)) : Reads o acc p R := by
  subst ho
  cases m with
  | none => exact h
  | some es =>
    obtain ⟨es', h1, h2⟩ := h
    refine ⟨flushE p ++ (es0 ++ es'), by simp [h1], ?_⟩
    rw [glue_flushE]
    refine glue_congr (glue_append_congr es0 ?_)
    rw [h2, glue_plain_nil]

theorem parse_toks (L : GoLib) (is : List Item) (hw : WF is) (p : Str) (k : Nat) (q : Bool)
    (n : Nat) (cur : Token) (acc : List Expr) (hn : (toks p is).length < n) :
    Reads (meaning k q is) acc p
      (parseLoop L n ⟨toks p is, cur, k, if q then question else dollar⟩ acc) := by
  induction is generalizing p k q n cur acc with
  | nil =>
    obtain ⟨n', cur', h1, h2⟩ := parseLoop_flush (L := L) (cur := cur) (k := k)
      (st := if q then question else dollar) (acc := acc) hn
    simp only [meaning]
    refine ⟨flushE p, ?_, ?_⟩
    · simp only [toks, toksX]
      rw [h2]
      obtain ⟨m, rfl⟩ : ∃ m, n' = m + 2 := ⟨n' - 2, by simp at h1; omega⟩
      exact parseLoop_eof
    · have := glue_flushE p []
      simpa using this
  | cons i is ih =>
    obtain ⟨hi, hne, hf, hfi, hw'⟩ := id hw
    cases i with
    | text s =>
      have := ih hw' (p ++ s) k q n cur acc hn
      simp only [toks, toksX, meaning]
      generalize meaning k q is = m at *
      cases m with
      | none => exact this
      | some es =>
        obtain ⟨es', h1, h2⟩ := this
        exact ⟨es', h1, by rw [h2, glue_plain_append]⟩
    | esc b =>
      have := ih hw' (p ++ [b, b]) k q n cur acc hn
      simp only [toks, toksX, meaning]
      generalize meaning k q is = m at *
      cases m with
      | none => exact this
      | some es =>
        obtain ⟨es', h1, h2⟩ := this
        exact ⟨es', h1, by rw [h2, glue_plain_append]⟩
    | quoted c s =>
      simp only [toks, toksX] at *
      cases n with
      | zero => simp at hn
      | succ n =>
        have := ih hw' [] k q n (tPlain (p ++ ([c] ++ s ++ [c])))
          (acc ++ [.plain (p ++ ([c] ++ s ++ [c]))]) (by simp at hn; omega)
        rw [parseLoop_plain]
        simp only [meaning]
        generalize meaning k q is = m at *
        cases m with
        | none => exact this
        | some es =>
          obtain ⟨es', h1, h2⟩ := this
          refine ⟨.plain (p ++ ([c] ++ s ++ [c])) :: es', by rw [h1]; simp, ?_⟩
          rw [← glue_plain_append]
          refine glue_congr ?_
          rw [h2, glue_plain_nil]
    | qmark =>
      simp only [toks, toksX] at *
      obtain ⟨n', cur', h1, h2⟩ := parseLoop_flush (L := L) (cur := cur) (k := k)
        (st := if q then question else dollar) (acc := acc) hn
      rw [h2]
      obtain ⟨m, rfl⟩ : ∃ m, n' = m + 1 := ⟨n' - 1, by omega⟩
      have h3 : parseLoop L (m + 1) ⟨tRef [0x3F] :: toks [] is, cur', k,
          if q then question else dollar⟩ (acc ++ flushE p) =
          parseLoop L m ⟨toks [] is, tRef [0x3F], k + 1, question⟩
            (acc ++ flushE p ++ [.bindVar question (k + 1 : Nat)]) := by
        rw [parseLoop]
        simp only [PState.next]
        rw [bindVar_qmark]
        rfl
      rw [h3]
      refine Reads.cons (m := meaning (k + 1) true is) (es0 := [.bindVar question (k + 1 : Nat)]) ?_ ?_
      · exact ih hw' [] (k + 1) true m _ _ (by simp at h1; omega)
      · rfl
    | dollarN d =>
      simp only [toks, toksX] at *
      obtain ⟨n', cur', h1, h2⟩ := parseLoop_flush (L := L) (cur := cur) (k := k)
        (st := if q then question else dollar) (acc := acc) hn
      rw [h2]
      obtain ⟨m, rfl⟩ : ∃ m, n' = m + 1 := ⟨n' - 1, by omega⟩
      cases q with
      | true =>
        simp only [meaning, if_true]
        rw [parseLoop]
        simp only [PState.next]
        rw [bindVar_dollar_mixed]
        rfl
      | false =>
        have h3 : parseLoop L (m + 1) ⟨tRef [0x24] :: tNum (natDigits d) :: toks [] is, cur', k,
            dollar⟩ (acc ++ flushE p) =
            parseLoop L m ⟨toks [] is, tNum (natDigits d), k + 1, dollar⟩
              (acc ++ flushE p ++ [.bindVar dollar (d : Nat)]) := by
          rw [parseLoop]
          simp only [PState.next]
          rw [bindVar_dollar hi.2]
          rfl
        simp only [Bool.false_eq_true, if_false]
        rw [h3]
        refine Reads.cons (m := meaning (k + 1) false is) (es0 := [.bindVar dollar (d : Nat)]) ?_ ?_
        · exact ih hw' [] (k + 1) false m _ _ (by simp at h1; omega)
        · rfl
    | callN name d =>
      simp only [toks, toksX] at *
      obtain ⟨n', cur', h1, h2⟩ := parseLoop_flush (L := L) (cur := cur) (k := k)
        (st := if q then question else dollar) (acc := acc) hn
      rw [h2]
      obtain ⟨m, rfl⟩ : ∃ m, n' = m + 1 := ⟨n' - 1, by omega⟩
      have h3 : parseLoop L (m + 1) ⟨tHash :: tName name :: tNum (natDigits d) :: toks [] is, cur', k,
          if q then question else dollar⟩ (acc ++ flushE p) =
          parseLoop L m ⟨toks [] is, tNum (natDigits d), k, if q then question else dollar⟩
            (acc ++ flushE p ++ [.call name [.num (.nat d)]]) := by
        rw [parseLoop]
        simp only [PState.next, funcExpr, tName, tNum, tHash]
        simp only [ne_eq, not_true_eq_false, if_false]
        rw [parseFloat_digits L hi.2]
      rw [h3]
      refine Reads.cons (m := meaning k q is) (es0 := [.call name [.num (.nat d)]]) ?_ ?_
      · exact ih hw' [] k q m _ _ (by simp at h1; omega)
      · rfl
    | call name args =>
      simp only [toks, toksX] at *
      obtain ⟨n', cur', h1, h2⟩ := parseLoop_flush (L := L) (cur := cur) (k := k)
        (st := if q then question else dollar) (acc := acc) hn
      rw [h2]
      obtain ⟨m, rfl⟩ : ∃ m, n' = m + 1 := ⟨n' - 1, by omega⟩
      have h3 : parseLoop L (m + 1) ⟨tHash :: tName name :: tLparen :: (argToks args ++ toks [] is),
          cur', k, if q then question else dollar⟩ (acc ++ flushE p) =
          parseLoop L m ⟨toks [] is, tRparen, k, if q then question else dollar⟩
            (acc ++ flushE p ++ [.call name (args.map (·.2.value))]) := by
        rw [parseLoop]
        simp only [PState.next, funcExpr, tName, tLparen, tHash]
        simp only [ne_eq, not_true_eq_false, if_false]
        rw [argsLoop_args L args hi.2 _ _ _ _ _ _
          (by have := argToks_length args; simp only [List.length_append]; omega)]
        simp
      rw [h3]
      refine Reads.cons (m := meaning k q is) (es0 := [.call name (args.map (·.2.value))]) ?_ ?_
      · exact ih hw' [] k q m _ _ (by simp at h1; omega)
      · rfl
    | func name =>
      simp only [toks, toksX] at *
      obtain ⟨n', cur', h1, h2⟩ := parseLoop_flush (L := L) (cur := cur) (k := k)
        (st := if q then question else dollar) (acc := acc) hn
      rw [h2]
      obtain ⟨m, rfl⟩ : ∃ m, n' = m + 1 := ⟨n' - 1, by omega⟩
      have haf := toks_after_func hw' hfi
      simp only [toks] at haf
      rcases haf with he | ⟨t, ts, he⟩
      · -- the template ends here
        have hg := ih hw' [] k q 2 cur (acc ++ flushE p ++ [.func name]) (by rw [he]; simp)
        rw [he] at h1 hg ⊢
        obtain ⟨m', rfl⟩ : ∃ m', m = m' + 1 := ⟨m - 1, by simp at h1; omega⟩
        have h3 : parseLoop L (m' + 2) ⟨[tHash, tName name, tEof], cur', k,
            if q then question else dollar⟩ (acc ++ flushE p) =
            .ok (acc ++ flushE p ++ [.func name, .plain []]) := rfl
        rw [h3]
        rw [parseLoop_eof] at hg
        simp only [meaning]
        generalize meaning k q is = mm at *
        cases mm with
        | none => exact absurd hg (by simp [Reads])
        | some es =>
          obtain ⟨es', h4, h5⟩ := hg
          have : es' = [] := by
            injection h4 with h4
            have := congrArg List.length h4
            simp only [List.length_append] at this
            exact List.eq_nil_of_length_eq_zero (by omega)
          subst this
          refine ⟨flushE p ++ [.func name, .plain []], by simp, ?_⟩
          rw [glue_flushE]
          refine glue_congr (glue_congr (e := .func name) ?_)
          rw [glue_plain_nil, h5, glue_plain_nil]
      · rw [he] at h1
        have h3 : parseLoop L (m + 1) ⟨tHash :: tName name :: tPlain t :: ts, cur', k,
            if q then question else dollar⟩ (acc ++ flushE p) =
            parseLoop L (m + 1) ⟨tPlain t :: ts, cur', k, if q then question else dollar⟩
              (acc ++ flushE p ++ [.func name]) := by
          rw [parseLoop_plain, parseLoop]
          simp only [PState.next, funcExpr, tName, tHash, tPlain]
          simp
        rw [he, h3, ← he]
        refine Reads.cons (m := meaning k q is) (es0 := [.func name]) ?_ ?_
        · exact ih hw' [] k q (m + 1) _ _ (by rw [he]; simp at h1 ⊢; omega)
        · rfl

/-- Reading back a rendered template. -/
theorem parse_render (L : GoLib) (is : List Item) (hw : WF is) :
    match meaning 0 false is with
    | none => parse L (render is) = .error .mixedBindvarStyles
    | some es => ∃ es', parse L (render is) = .ok es' ∧ glue es' = glue es := by
  have h := parse_toks L is hw [] 0 false ((toks [] is).length + 1) ⟨.eof, .string, false, []⟩ []
    (by omega)
  unfold parse
  rw [scanAll_render L is hw]
  unfold parseTokens
  generalize meaning 0 false is = m at *
  cases m with
  | none => exact h
  | some es =>
    obtain ⟨es', h1, h2⟩ := h
    exact ⟨es', by simpa [dollar] using h1, by rw [h2, glue_plain_nil]⟩

end Sqlf
