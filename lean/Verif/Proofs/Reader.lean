import Verif.Proofs.ReaderArgs
/-!
# The parser reads every text as the reference reader does
-/

namespace Sqlf

open Lex Spec

/-! ## First tokens of plain text -/

theorem plainLoop_tok (n : Nat) (l : Lex) (h : l.tok ≠ []) : (plainLoop n l).1.tok ≠ [] := by
  have next_tok : ∀ l : Lex, l.tok ≠ [] → l.next.tok ≠ [] := by
    intro l h
    unfold Lex.next
    split
    · exact h
    · simp [h]
  induction n generalizing l with
  | zero => exact h
  | succ n ih =>
    unfold plainLoop
    dsimp only
    split
    · exact h
    · split
      · split
        · exact ih _ (next_tok _ (next_tok _ h))
        · exact h
      · split
        · exact h
        · split
          · exact h
          · exact ih _ (next_tok _ h)

theorem scans_head {L : GoLib} {st : Scan} {l l' : Lex} {t0 : Token} {st' : Scan} {ts : List Token}
    (h : Scans L st l ts) (h1 : scanStep L st l = (l', [t0], some st')) : ∃ ts', ts = t0 :: ts' := by
  obtain ⟨n, hn⟩ := h
  cases n with
  | zero => simp [scanRun] at hn
  | succ n =>
    unfold scanRun at hn
    rw [h1] at hn
    simp only [Option.map_eq_some_iff] at hn
    obtain ⟨x, _, rfl⟩ := hn
    exact ⟨x, rfl⟩

theorem pscans_head {L : GoLib} {l : Lex} {ts : List Token} (h : PScans L l ts) : ∃ t0 ts', ts = t0 :: ts' ∧
    (t0.typ = .plain ∨ t0.typ = .ref ∨ t0.typ = .hash ∨ t0.typ = .eof) := by
  unfold PScans plainCont at h
  generalize plainInf l = r at h
  obtain ⟨l', stop⟩ := r
  cases ha : l'.advanced with
  | true =>
    cases stop with
    | quoted =>
      simp only at h
      obtain ⟨ts', h1, rfl⟩ := h
      obtain ⟨ts'', rfl⟩ := scans_head h1 rfl
      exact ⟨_, _, rfl, .inl rfl⟩
    | _ =>
      simp only [ha, if_true] at h
      obtain ⟨ts', h1, rfl⟩ := h
      exact ⟨_, _, rfl, .inl rfl⟩
  | false =>
    cases stop with
    | eof =>
      simp only [ha, Bool.false_eq_true, if_false] at h
      subst h
      exact ⟨_, _, rfl, .inr (.inr (.inr rfl))⟩
    | quoted =>
      simp only at h
      obtain ⟨ts', h1, rfl⟩ := h
      obtain ⟨ts'', rfl⟩ := scans_head h1 rfl
      exact ⟨_, _, rfl, .inl rfl⟩
    | ref =>
      simp only [ha, Bool.false_eq_true, if_false] at h
      obtain ⟨ts', h1, rfl⟩ := h
      obtain ⟨ts'', rfl⟩ := scans_head h1 rfl
      exact ⟨_, _, rfl, .inr (.inl rfl)⟩
    | func =>
      simp only [ha, Bool.false_eq_true, if_false] at h
      obtain ⟨ts', h1, rfl⟩ := h
      obtain ⟨ts'', rfl⟩ := scans_head h1 rfl
      exact ⟨_, _, rfl, .inr (.inr (.inl rfl))⟩

theorem pscans_pending {L : GoLib} {l : Lex} {ts : List Token} (hl : l.tok ≠ []) (h : PScans L l ts) :
    ∃ t0 ts', ts = t0 :: ts' ∧ t0.typ = .plain := by
  have h1 := plainLoop_tok l.fuel l hl
  rw [show plainLoop l.fuel l = plainInf l from rfl] at h1
  unfold PScans plainCont at h
  generalize plainInf l = r at h h1
  obtain ⟨l', stop⟩ := r
  have ha : l'.advanced = true := by
    obtain ⟨tok, rest, eof⟩ := l'
    exact advanced_of_ne_nil h1
  cases stop with
  | quoted =>
    simp only at h
    obtain ⟨ts', h1, rfl⟩ := h
    obtain ⟨ts'', rfl⟩ := scans_head h1 rfl
    exact ⟨_, _, rfl, rfl⟩
  | _ =>
    simp only [ha, if_true] at h
    obtain ⟨ts', h1, rfl⟩ := h
    exact ⟨_, _, rfl, rfl⟩

/-- The text begins with text. -/
def TextHead : Str → Prop
  | [] => False
  | b :: t => plainByte b = true ∨ (b = 0x27 ∨ b = 0x22 ∨ b = 0x60) ∨ ((b = 0x24 ∨ b = 0x3F) ∧ t.head? = some b)

theorem pscans_text {L : GoLib} {s : Str} {e : Bool} {ts : List Token} (hs : TextHead s)
    (h : PScans L ⟨[], s, e⟩ ts) : ∃ t0 ts', ts = t0 :: ts' ∧ t0.typ = .plain := by
  rcases s with _ | ⟨b, t⟩
  · exact hs.elim
  · rcases hs with hb | hb | ⟨hb, ht⟩
    · exact pscans_pending (l := ⟨[b], t, e⟩) (by simp) (PScans.congr (plainInf_byte [] b t e hb).symm h)
    · unfold PScans plainCont at h
      rw [plainInf_quote hb] at h
      simp only at h
      obtain ⟨ts', h1, rfl⟩ := h
      obtain ⟨ts'', rfl⟩ := scans_head h1 rfl
      exact ⟨_, _, rfl, rfl⟩
    · rcases t with _ | ⟨b', t⟩
      · simp at ht
      · obtain rfl : b' = b := by simpa using ht
        exact pscans_pending (l := ⟨[b', b'], t, e⟩) (by simp) (PScans.congr (plainInf_esc (p := []) hb).symm h)

/-! ## Digits and names -/

theorem takeWhile_all {p : UInt8 → Bool} {s : Str} : ∀ b ∈ s.takeWhile p, p b = true := by
  induction s with
  | nil => simp
  | cons c s ih =>
    intro b hb
    by_cases hc : p c = true
    · simp only [List.takeWhile_cons, hc, if_true, List.mem_cons] at hb
      rcases hb with rfl | hb
      · exact hc
      · exact ih b hb
    · simp [List.takeWhile_cons, hc] at hb

theorem dropWhile_head {p : UInt8 → Bool} {s : Str} : ∀ b, (s.dropWhile p).head? = some b → p b = false := by
  induction s with
  | nil => simp
  | cons c s ih =>
    intro b hb
    by_cases hc : p c = true
    · simp only [List.dropWhile_cons, hc, if_true] at hb
      exact ih b hb
    · simp only [List.dropWhile_cons, hc] at hb
      obtain rfl : c = b := by simpa using hb
      simpa using hc

theorem dropWhile_length (p : UInt8 → Bool) (s : Str) : (s.dropWhile p).length ≤ s.length := by
  have := congrArg List.length (List.takeWhile_append_dropWhile (p := p) (l := s))
  rw [List.length_append] at this
  omega

theorem digit19_digit {b : UInt8} (h : digit19 b = true) : isDigitB b = true := by
  simp only [digit19, isDigitB, Bool.and_eq_true, decide_eq_true_eq, UInt8.le_iff_toNat_le] at *
  have h1 : (49 : Nat) ≤ b.toNat := h.1
  exact ⟨show (48 : Nat) ≤ b.toNat by omega, h.2⟩

theorem scans_digits {L : GoLib} {tok t : Str} {e : Bool} {ts : List Token} (ht : startsWith digit19 t = true)
    (h' : PScans L ⟨[], t.dropWhile isDigitB, e⟩ ts) :
    Scans L .index ⟨tok, t, e⟩ (tNum (t.takeWhile isDigitB) :: ts) := by
  refine Scans.step (l' := ⟨t.takeWhile isDigitB, t.dropWhile isDigitB, e⟩) (toks := [tNum (t.takeWhile isDigitB)])
    (st' := .plain) ?_ (PScans.scans h')
  show scanIndex _ = _
  unfold scanIndex
  rw [if_pos]
  · have := digitsInf_digits (t.takeWhile isDigitB) (t.dropWhile isDigitB) [] e takeWhile_all dropWhile_head
    rw [List.takeWhile_append_dropWhile] at this
    unfold digitsInf at this
    simp only [startToken]
    rw [this]
    rfl
  · rcases t with _ | ⟨b, t⟩
    · simp [startsWith] at ht
    · have hb : digit19 b = true := ht
      simp only [digit19, Bool.and_eq_true, decide_eq_true_eq] at hb
      rw [rune_cons_ascii (UInt8.lt_of_le_of_lt hb.2 (by decide))]
      exact ⟨UInt8.le_iff_toNat_le.mp hb.1, UInt8.le_iff_toNat_le.mp hb.2⟩

theorem not_starts {t : Str} (ht : startsWith digit19 t = false) :
    ∀ b, t.head? = some b → ¬ (0x31 ≤ b ∧ b ≤ 0x39) := by
  rcases t with _ | ⟨b, t⟩
  · simp
  · intro c hc
    obtain rfl : b = c := by simpa using hc
    have hb : digit19 b = false := ht
    simpa [digit19] using hb

theorem parseUint_of_digits {t : Str} (ht : startsWith digit19 t = true) : parseUint (t.takeWhile isDigitB) =
    if digitsVal (t.takeWhile isDigitB) < 2 ^ 64 then some (digitsVal (t.takeWhile isDigitB)) else none := by
  rcases t with _ | ⟨b, t⟩
  · simp [startsWith] at ht
  · have hb : digit19 b = true := ht
    have h1 : ((b :: t).takeWhile isDigitB).isEmpty = false := by simp [digit19_digit hb]
    have h2 : ((b :: t).takeWhile isDigitB).all isDigitB = true := List.all_eq_true.mpr takeWhile_all
    unfold parseUint
    rw [h1, h2]
    simp

theorem name_split (t : Str) : t.takeWhile nameByte ++ t.dropWhile nameByte = t := List.takeWhile_append_dropWhile

theorem scans_name_none {L : GoLib} {tok t : Str} {e : Bool} {ts : List Token} (hn : t.takeWhile nameByte = [])
    (h : PScans L ⟨[], t, e⟩ ts) : Scans L .funcName ⟨tok, t, e⟩ ts := by
  refine Scans.step (l' := ⟨[], t, e⟩) (toks := []) (st' := .plain) ?_ (PScans.scans h)
  show scanFuncName _ = _
  have : lettersLoop (Lex.mk tok t e).startToken.fuel (Lex.mk tok t e).startToken = ⟨[], t, e⟩ := by
    have := lettersInf_name [] t [] e (by simp) (fun b hb => by
      rcases t with _ | ⟨c, t⟩
      · simp at hb
      · obtain rfl : c = b := by simpa using hb
        cases hc : nameByte c with
        | false => rfl
        | true => simp [hc] at hn)
    exact this
  unfold scanFuncName
  dsimp only
  rw [this]
  rfl

theorem scans_name_digits {L : GoLib} {tok name r : Str} {e : Bool} {ts : List Token}
    (hn : isName name) (hr : startsWith isDigitB r = true) (h' : PScans L ⟨[], r.dropWhile isDigitB, e⟩ ts) :
    Scans L .funcName ⟨tok, name ++ r, e⟩ (tName name :: tNum (r.takeWhile isDigitB) :: ts) := by
  refine Scans.step (l' := ⟨r.takeWhile isDigitB, r.dropWhile isDigitB, e⟩)
    (toks := [tName name, tNum (r.takeWhile isDigitB)]) (st' := .plain) ?_ (PScans.scans h')
  show scanFuncName _ = _
  rcases r with _ | ⟨b, t⟩
  · simp [startsWith] at hr
  have hb : isDigitB b = true := hr
  rw [scanFuncName_eq hn (fun c hc => by
    obtain rfl : b = c := by simpa using hc
    exact digit_not_name hb)]
  have := decimalsInf_digits ((b :: t).takeWhile isDigitB) ((b :: t).dropWhile isDigitB) [] e takeWhile_all dropWhile_head
  rw [List.takeWhile_append_dropWhile] at this
  rw [this]
  have hne : (b :: t).takeWhile isDigitB ≠ [] := by simp [hb]
  simp only [List.nil_append, advanced_of_ne_nil hne, if_true]
  rfl

theorem scans_name {L : GoLib} {tok name r : Str} {e : Bool} {ts : List Token}
    (hn : isName name) (hr : ∀ b, r.head? = some b → nameByte b = false)
    (hd : startsWith isDigitB r = false) (hp : r.head? ≠ some 0x28) (h' : PScans L ⟨[], r, e⟩ ts) :
    Scans L .funcName ⟨tok, name ++ r, e⟩ (tName name :: ts) := by
  refine Scans.step (l' := ⟨[], r, e⟩) (toks := [tName name]) (st' := .plain) ?_ (PScans.scans h')
  show scanFuncName _ = _
  rw [scanFuncName_eq hn hr, decimalsInf_none (fun b hb => by
    rcases r with _ | ⟨c, r⟩
    · simp at hb
    · obtain rfl : c = b := by simpa using hb
      exact hd)]
  simp only [advanced, List.isEmpty_nil, Bool.not_true, Bool.false_eq_true, if_false]
  rw [if_neg]
  rw [show rLparen = (0x28 : UInt8).toNat from rfl, rune_eq_iff_head (by decide) (by decide)]
  exact hp

/-! ## The parser -/

/-- Result of parsing: `m` is what the reader says, `R` what the parser returns. -/
def Corr (m : Option (List Expr)) (acc : List Expr) (p : Str) (R : Except PErr (List Expr)) : Prop :=
  match m with
  | none => ∃ e, R = .error e
  | some es => ∃ es', R = .ok (acc ++ es') ∧ glue es' = glue (.plain p :: es)

theorem Corr.cons {m o : Option (List Expr)} {acc es0 : List Expr} {p : Str}
    {R : Except PErr (List Expr)} (h : Corr m (acc ++ flushE p ++ es0) [] R)
    (ho : o = m.map (es0 ++ ·)) : Corr o acc p R := by
  subst ho
  cases m with
  | none => exact h
  | some es =>
    obtain ⟨es', h1, h2⟩ := h
    refine ⟨flushE p ++ (es0 ++ es'), by simp [h1], ?_⟩
    rw [glue_flushE]
    refine glue_congr (glue_append_congr es0 ?_)
    rw [h2, glue_plain_nil]

theorem Corr.text {m o : Option (List Expr)} {acc : List Expr} {p x : Str}
    {R : Except PErr (List Expr)} (h : Corr m acc (p ++ x) R)
    (ho : o = m.map (.plain x :: ·)) : Corr o acc p R := by
  subst ho
  cases m with
  | none => exact h
  | some es =>
    obtain ⟨es', h1, h2⟩ := h
    exact ⟨es', h1, by rw [h2, glue_plain_append]⟩

theorem parseLoop_plain_typ {L : GoLib} {n : Nat} {t0 : Token} {ts : List Token} {cur : Token} {k : Nat}
    {st : Style} {acc : List Expr} (h : t0.typ = .plain) :
    parseLoop L (n + 1) ⟨t0 :: ts, cur, k, st⟩ acc = parseLoop L n ⟨ts, t0, k, st⟩ (acc ++ [.plain t0.lit]) := by
  rw [parseLoop]
  simp only [PState.next]
  rw [h]

theorem parseLoop_other {L : GoLib} {n : Nat} {t0 : Token} {ts : List Token} {cur : Token} {k : Nat}
    {st : Style} {acc : List Expr} (h : t0.typ = .literal ∨ t0.typ = .name) :
    ∃ er, parseLoop L (n + 1) ⟨t0 :: ts, cur, k, st⟩ acc = .error er := by
  rw [parseLoop]
  simp only [PState.next]
  rcases h with h | h <;> (rw [h]; exact ⟨_, rfl⟩)

/-- What the induction shows about the text `s`. -/
def ReadsAs (L : GoLib) (m : Option (List Expr)) (k : Nat) (q : Bool) (p s : Str) (e : Bool) : Prop :=
  ∃ ts, PScans L ⟨p, s, e⟩ ts ∧ ∀ n cur acc, ts.length < n →
    Corr m acc p (parseLoop L n ⟨ts, cur, k, if q then question else dollar⟩ acc)

theorem readsAs_end {L : GoLib} {k : Nat} {q : Bool} {p s : Str} {e : Bool}
    (h : PScans L ⟨p, s, e⟩ (flush p ++ [tEof])) : ReadsAs L (some []) k q p s e := by
  refine ⟨_, h, ?_⟩
  intro n cur acc hn
  obtain ⟨n', cur', h1, h2⟩ := parseLoop_flush (L := L) (cur := cur) (k := k)
    (st := if q then question else dollar) (acc := acc) hn
  rw [h2]
  obtain ⟨m, rfl⟩ : ∃ m, n' = m + 2 := ⟨n' - 2, by simp at h1; omega⟩
  refine ⟨flushE p, parseLoop_eof, ?_⟩
  have := glue_flushE p []
  simpa using this

theorem readsAs_text {L : GoLib} {m o : Option (List Expr)} {k : Nat} {q : Bool} {p x s s' : Str} {e : Bool}
    (h : ReadsAs L m k q (p ++ x) s' e) (hi : plainInf ⟨p, s, e⟩ = plainInf ⟨p ++ x, s', e⟩)
    (ho : o = m.map (.plain x :: ·)) : ReadsAs L o k q p s e := by
  obtain ⟨ts, h1, h2⟩ := h
  exact ⟨ts, PScans.congr hi h1, fun n cur acc hn => (h2 n cur acc hn).text ho⟩

theorem readsAs_stop {L : GoLib} {m : Option (List Expr)} {k : Nat} {q : Bool} {p s : Str} {e : Bool} {ts : List Token}
    (h : PScans L ⟨p, s, e⟩ (flush p ++ ts))
    (h' : ∀ n cur acc, ts.length < n →
      Corr m (acc ++ flushE p) [] (parseLoop L n ⟨ts, cur, k, if q then question else dollar⟩ (acc ++ flushE p))) :
    ReadsAs L m k q p s e := by
  refine ⟨_, h, fun n cur acc hn => ?_⟩
  obtain ⟨n', cur', h1, h2⟩ := parseLoop_flush (L := L) (cur := cur) (k := k)
    (st := if q then question else dollar) (acc := acc) hn
  rw [h2]
  have := h' n' cur' acc h1
  exact Corr.cons (es0 := []) (m := m) (by simpa using this) (by cases m <;> rfl)

theorem funcExpr_bare {L : GoLib} {name : Str} {t0 : Token} {ts : List Token} {k : Nat} {st : Style}
    (h : t0.typ = .plain ∨ t0.typ = .ref ∨ t0.typ = .hash ∨ t0.typ = .eof) :
    funcExpr L ⟨tName name :: t0 :: ts, tHash, k, st⟩ = .ok ([.func name, .plain t0.lit], ⟨ts, t0, k, st⟩) := by
  unfold funcExpr
  simp only [PState.next, tName, ne_eq, not_true_eq_false, if_false]
  rcases h with h | h | h | h <;> rw [h]

theorem parseLoop_hash {L : GoLib} {n : Nat} {ts : List Token} {cur : Token} {k : Nat} {st : Style} {acc : List Expr} :
    parseLoop L (n + 1) ⟨tHash :: ts, cur, k, st⟩ acc =
      match funcExpr L ⟨ts, tHash, k, st⟩ with
      | .error e => .error e
      | .ok (ds, p) => parseLoop L n p (acc ++ ds) := rfl

theorem parseLoop_func {L : GoLib} {n : Nat} {name : Str} {t0 : Token} {ts : List Token} {cur : Token} {k : Nat}
    {st : Style} {acc : List Expr} (h : t0.typ = .plain ∨ t0.typ = .ref ∨ t0.typ = .hash ∨ t0.typ = .eof) :
    parseLoop L (n + 1) ⟨tHash :: tName name :: t0 :: ts, cur, k, st⟩ acc =
      parseLoop L n ⟨ts, t0, k, st⟩ (acc ++ [.func name, .plain t0.lit]) := by
  rw [parseLoop_hash, funcExpr_bare h]

theorem parseLoop_ref {L : GoLib} {n : Nat} {t0 : Token} {ts : List Token} {cur : Token} {k : Nat} {st : Style}
    {acc : List Expr} (h : t0.typ = .ref) :
    parseLoop L (n + 1) ⟨t0 :: ts, cur, k, st⟩ acc =
      match bindVarExpr ⟨ts, t0, k, st⟩ with
      | .error e => .error e
      | .ok (d, p) => parseLoop L n p (acc ++ [d]) := by
  rw [parseLoop]
  simp only [PState.next]
  rw [h]
  rfl

theorem bindVar_no_digit {t0 : Token} {ts : List Token} {k : Nat} (h : t0.typ ≠ .literal) :
    bindVarExpr ⟨t0 :: ts, tRef [0x24], k, dollar⟩ = .error (.unexpectedToken t0.typ) := by
  have : bindVarExpr ⟨t0 :: ts, tRef [0x24], k, dollar⟩ =
      if t0.typ ≠ .literal then .error (.unexpectedToken t0.typ)
      else if t0.kind ≠ .number then .error .wantBindvarIndex
      else match parseUint t0.lit with
        | none => .error (.badUint t0.lit)
        | some v => .ok (.bindVar dollar (intOfUint64 v), ⟨ts, t0, k + 1, dollar⟩) := rfl
  rw [this, if_pos h]

theorem readsAs (L : GoLib) (n : Nat) (s : Str) (hn : s.length < n) (k : Nat) (q : Bool) (p : Str) (e : Bool) :
    ReadsAs L (readFrom L n k q s) k q p s e := by
  induction n generalizing s k q p e with
  | zero => omega
  | succ n ih =>
  rcases s with _ | ⟨b, t⟩
  · exact readsAs_end pscans_end
  have hlt : t.length < n := by simp at hn; omega
  unfold readFrom
  by_cases h0 : b = 0
  · subst h0
    rw [if_pos rfl]
    exact readsAs_end pscans_nul
  rw [if_neg h0]
  by_cases hb : b = 0x24 ∨ b = 0x3F
  · have hb80 : b < 0x80 := by rcases hb with rfl | rfl <;> decide
    rw [if_pos hb]
    by_cases hh : t.head? = some b
    · rw [if_pos hh]
      rcases t with _ | ⟨c, t⟩
      · simp at hh
      obtain rfl : c = b := by simpa using hh
      exact readsAs_text (ih t (by simp at hlt; omega) k q _ e) (plainInf_esc hb) rfl
    rw [if_neg hh]
    have hst := plainInf_ref (p := p) (e := e) hb hh
    by_cases hq : b = 0x3F
    · subst hq
      rw [if_pos rfl]
      by_cases hd : startsWith digit19 t = true
      · rw [if_pos hd]
        obtain ⟨ts, h1, -⟩ := ih (t.dropWhile isDigitB) (by have := dropWhile_length isDigitB t; omega) k q [] e
        refine readsAs_stop (PScans.ref hst (scans_ref hb80 (scans_digits hd h1))) ?_
        intro m cur acc hm
        obtain ⟨m, rfl⟩ : ∃ m', m = m' + 2 := ⟨m - 2, by simp at hm; omega⟩
        rw [parseLoop_ref rfl, bindVar_qmark]
        exact parseLoop_other (.inl rfl)
      · rw [if_neg hd]
        obtain ⟨ts, h1, h2⟩ := ih t hlt (k + 1) true [] e
        refine readsAs_stop (PScans.ref hst (scans_ref hb80 (scans_index_none (not_starts (by simpa using hd)) h1))) ?_
        intro m cur acc hm
        obtain ⟨m, rfl⟩ : ∃ m', m = m' + 1 := ⟨m - 1, by simp at hm; omega⟩
        rw [parseLoop_ref rfl, bindVar_qmark]
        have := h2 m (tRef [0x3F]) (acc ++ flushE p ++ [.bindVar question (k + 1 : Nat)]) (by simp at hm; omega)
        refine Corr.cons (es0 := [.bindVar question (k + 1 : Nat)]) ?_ rfl
        simpa [flushE] using this
    · rw [if_neg hq]
      obtain rfl : b = 0x24 := by rcases hb with h | h; · exact h
                                  · exact absurd h hq
      by_cases hd : startsWith digit19 t = true
      · obtain ⟨ts, h1, h2⟩ := ih (t.dropWhile isDigitB) (by have := dropWhile_length isDigitB t; omega) (k + 1) false [] e
        refine readsAs_stop (PScans.ref hst (scans_ref hb80 (scans_digits hd h1))) ?_
        intro m cur acc hm
        obtain ⟨m, rfl⟩ : ∃ m', m = m' + 1 := ⟨m - 1, by simp at hm; omega⟩
        rw [parseLoop_ref rfl]
        cases q with
        | true =>
          rw [if_pos (.inl rfl)]
          simp only [if_true]
          rw [bindVar_dollar_mixed]
          exact ⟨_, rfl⟩
        | false =>
          simp only [Bool.false_eq_true, if_false]
          rw [bindVar_dollar_eq, parseUint_of_digits hd]
          by_cases hv : 2 ^ 64 ≤ digitsVal (t.takeWhile isDigitB)
          · rw [if_pos (.inr (.inr hv)), if_neg (by omega)]
            exact ⟨_, rfl⟩
          · rw [if_neg (by simp [hd]; omega), if_pos (by omega)]
            have := h2 m (tNum (t.takeWhile isDigitB)) (acc ++ flushE p ++
              [.bindVar dollar (intOfUint64 (digitsVal (t.takeWhile isDigitB)))]) (by simp at hm; omega)
            refine Corr.cons (es0 := [.bindVar dollar (intOfUint64 (digitsVal (t.takeWhile isDigitB)))]) ?_ rfl
            simpa [flushE] using this
      · have hd : startsWith digit19 t = false := by simpa using hd
        rw [if_pos (.inr (.inl hd))]
        obtain ⟨ts, h1, -⟩ := ih t hlt k q [] e
        refine readsAs_stop (PScans.ref hst (scans_ref hb80 (scans_index_none (not_starts hd) h1))) ?_
        intro m cur acc hm
        obtain ⟨m, rfl⟩ : ∃ m', m = m' + 1 := ⟨m - 1, by simp at hm; omega⟩
        rw [parseLoop_ref rfl]
        cases q with
        | true =>
          simp only [if_true]
          rw [bindVar_dollar_mixed]
          exact ⟨_, rfl⟩
        | false =>
          obtain ⟨t0, ts', rfl, h2⟩ := pscans_head h1
          simp only [Bool.false_eq_true, if_false]
          rw [bindVar_no_digit (by rcases h2 with h | h | h | h <;> rw [h] <;> simp)]
          exact ⟨_, rfl⟩
  rw [if_neg hb]
  by_cases hb3 : b = 0x23
  · subst hb3
    rw [if_pos rfl]
    dsimp only
    have hst := plainInf_hash (p := p) (t := t) (e := e)
    by_cases hname : t.takeWhile nameByte = []
    · rw [if_pos hname]
      obtain ⟨ts, h1, -⟩ := ih t hlt k q [] e
      refine readsAs_stop (PScans.func hst (scans_hash (scans_name_none hname h1))) ?_
      intro m cur acc hm
      obtain ⟨m, rfl⟩ : ∃ m', m = m' + 1 := ⟨m - 1, by simp at hm; omega⟩
      obtain ⟨t0, ts', rfl, h2⟩ := pscans_head h1
      rw [parseLoop_hash]
      have h3 : ∀ st, funcExpr L ⟨t0 :: ts', tHash, k, st⟩ = .error (.unexpectedToken t0.typ) := by
        intro st
        have hne : t0.typ ≠ .name := by rcases h2 with h | h | h | h <;> rw [h] <;> simp
        unfold funcExpr
        exact if_pos hne
      rw [h3]
      exact ⟨_, rfl⟩
    rw [if_neg hname]
    have hnm : isName (t.takeWhile nameByte) := ⟨hname, takeWhile_all⟩
    have hr : ∀ b, (t.dropWhile nameByte).head? = some b → nameByte b = false := dropWhile_head
    have hlr : (t.dropWhile nameByte).length < n := by have := dropWhile_length nameByte t; omega
    have hsplit := name_split t
    generalize t.takeWhile nameByte = name at *
    generalize t.dropWhile nameByte = r at *
    subst hsplit
    by_cases hd : startsWith isDigitB r = true
    · rw [if_pos hd]
      obtain ⟨ts, h1, h2⟩ := ih (r.dropWhile isDigitB) (by have := dropWhile_length isDigitB r; omega) k q [] e
      refine readsAs_stop (PScans.func hst (scans_hash (scans_name_digits hnm hd h1))) ?_
      intro m cur acc hm
      obtain ⟨m, rfl⟩ : ∃ m', m = m' + 1 := ⟨m - 1, by simp at hm; omega⟩
      rw [parseLoop_hash]
      have h3 : ∀ st, funcExpr L ⟨tName name :: tNum (r.takeWhile isDigitB) :: ts, tHash, k, st⟩ =
          match parseFloat L (r.takeWhile isDigitB) with
          | none => .error (.badFloat (r.takeWhile isDigitB))
          | some x => .ok ([.call name [.num x]], ⟨ts, tNum (r.takeWhile isDigitB), k, st⟩) := fun _ => rfl
      rw [h3]
      cases hpf : parseFloat L (r.takeWhile isDigitB) with
      | none => exact ⟨_, rfl⟩
      | some x =>
        have := h2 m (tNum (r.takeWhile isDigitB)) (acc ++ flushE p ++ [.call name [.num x]]) (by simp at hm; omega)
        refine Corr.cons (es0 := [.call name [.num x]]) ?_ rfl
        simpa [flushE] using this
    rw [if_neg hd]
    have hd : startsWith isDigitB r = false := by simpa using hd
    by_cases hp : r.head? = some 0x28
    · rw [if_pos hp]
      rcases r with _ | ⟨c, r⟩
      · simp at hp
      obtain rfl : c = 0x28 := by simpa using hp
      simp only [List.drop_succ_cons, List.drop_zero]
      have h3 : ∀ st X, funcExpr L ⟨tName name :: tLparen :: X, tHash, k, st⟩ =
          match argsLoop L (X.length + 2) ⟨X, tLparen, k, st⟩ [] with
          | .error e => .error e
          | .ok (args, p) => .ok ([.call name args], p) := fun _ _ => rfl
      cases hra : readArgs L ((0x28 :: r : Str).length + 1) r with
      | none =>
        obtain ⟨ts, h1, h2⟩ := readArgs_none (by simp; omega) hra e
        refine readsAs_stop (PScans.func hst (scans_hash (scans_lparen hnm (h1 _)))) ?_
        intro m cur acc hm
        obtain ⟨m, rfl⟩ : ∃ m', m = m' + 1 := ⟨m - 1, by simp at hm; omega⟩
        rw [parseLoop_hash, h3]
        obtain ⟨er, h4⟩ := h2 (ts.length + 2) tLparen k (if q then question else dollar) [] (by omega)
        rw [h4]
        exact ⟨_, rfl⟩
      | some pr =>
        obtain ⟨args, u⟩ := pr
        obtain ⟨hlu, h1⟩ := readArgs_ok hra
        obtain ⟨Y, h1, h2⟩ := h1 e
        obtain ⟨X, h4, h5⟩ := ih u (by simp at hlr; omega) k q [] e
        refine readsAs_stop (PScans.func hst (scans_hash (scans_lparen hnm (h1 _ X h4)))) ?_
        intro m cur acc hm
        obtain ⟨m, rfl⟩ : ∃ m', m = m' + 1 := ⟨m - 1, by simp at hm; omega⟩
        rw [parseLoop_hash, h3]
        obtain ⟨cur', h6⟩ := h2 X ((Y ++ X).length + 2) tLparen k (if q then question else dollar) [] (by omega)
        rw [h6]
        have := h5 m cur' (acc ++ flushE p ++ [.call name args]) (by simp at hm; omega)
        refine Corr.cons (es0 := [.call name args]) ?_ rfl
        simpa [flushE] using this
    rw [if_neg hp]
    -- the bare name
    have bare : ∀ ts, PScans L ⟨[], r, e⟩ ts → PScans L ⟨p, 0x23 :: (name ++ r), e⟩
        (flush p ++ (tHash :: tName name :: ts)) := fun ts h =>
      PScans.func hst (scans_hash (scans_name hnm hr hd hp h))
    -- the token after it is text
    have textual : ∀ X, ReadsAs L X k q [] r e → TextHead r → ReadsAs L (X.map (.func name :: ·)) k q p (0x23 :: (name ++ r)) e := by
      rintro X ⟨ts, h1, h2⟩ ht
      obtain ⟨t0, ts', rfl, h3⟩ := pscans_text ht h1
      refine readsAs_stop (bare _ h1) ?_
      intro m cur acc hm
      obtain ⟨m, rfl⟩ : ∃ m', m = m' + 1 := ⟨m - 1, by simp at hm; omega⟩
      have h4 := h2 (m + 1) cur (acc ++ flushE p ++ [.func name]) (by simp at hm ⊢; omega)
      rw [parseLoop_plain_typ h3] at h4
      rw [parseLoop_func (.inl h3)]
      refine Corr.cons (es0 := [.func name]) (m := X) ?_ rfl
      simpa [flushE] using h4
    -- the token after it is a sign that becomes text
    have sign : ∀ (c : UInt8) X u (t0 : Token), ReadsAs L X k q [] u e →
        (t0.typ = .plain ∨ t0.typ = .ref ∨ t0.typ = .hash ∨ t0.typ = .eof) → t0.lit = [c] →
        (∀ ts, PScans L ⟨[], u, e⟩ ts → PScans L ⟨[], r, e⟩ (t0 :: ts)) →
        ReadsAs L (X.map (fun es => .func name :: .plain [c] :: es)) k q p (0x23 :: (name ++ r)) e := by
      rintro c X u t0 ⟨ts, h1, h2⟩ ht hl hs
      refine readsAs_stop (bare _ (hs _ h1)) ?_
      intro m cur acc hm
      obtain ⟨m, rfl⟩ : ∃ m', m = m' + 1 := ⟨m - 1, by simp at hm; omega⟩
      rw [parseLoop_func ht, hl]
      have h4 := h2 m t0 (acc ++ flushE p ++ [.func name, .plain [c]]) (by simp at hm ⊢; omega)
      refine Corr.cons (es0 := [.func name, .plain [c]]) (m := X) ?_ rfl
      simpa [flushE] using h4
    have failing : ∀ (t0 t1 : Token), (t0.typ = .plain ∨ t0.typ = .ref ∨ t0.typ = .hash ∨ t0.typ = .eof) →
        (t1.typ = .literal ∨ t1.typ = .name) → (∃ ts, PScans L ⟨[], r, e⟩ (t0 :: t1 :: ts)) →
        ReadsAs L none k q p (0x23 :: (name ++ r)) e := by
      rintro t0 t1 h0 h1 ⟨ts, h2⟩
      refine readsAs_stop (bare _ h2) ?_
      intro m cur acc hm
      obtain ⟨m, rfl⟩ : ∃ m', m = m' + 2 := ⟨m - 2, by simp at hm; omega⟩
      rw [parseLoop_func h0]
      exact parseLoop_other h1
    have ending : PScans L ⟨[], r, e⟩ [tEof] → ReadsAs L (some [.func name]) k q p (0x23 :: (name ++ r)) e := by
      intro h
      refine readsAs_stop (bare _ h) ?_
      intro m cur acc hm
      obtain ⟨m, rfl⟩ : ∃ m', m = m' + 2 := ⟨m - 2, by simp at hm; omega⟩
      rw [parseLoop_func (.inr (.inr (.inr rfl)))]
      refine ⟨[.func name, .plain []], ?_, rfl⟩
      rfl
    rcases r with _ | ⟨c, u⟩
    · exact ending (by simpa [flush] using pscans_end (L := L) (p := []) (e := e))
    dsimp only
    have hlu : u.length < n := by simp at hlr; omega
    by_cases hc : (c = 0x24 ∨ c = 0x3F) ∧ u.head? ≠ some c
    · rw [if_pos hc]
      have hc80 : c < 0x80 := by rcases hc.1 with rfl | rfl <;> decide
      have hst' := plainInf_ref (p := []) (e := e) hc.1 hc.2
      by_cases hdu : startsWith digit19 u = true
      · rw [if_pos hdu]
        obtain ⟨ts, h1, -⟩ := ih (u.dropWhile isDigitB) (by have := dropWhile_length isDigitB u; omega) k q [] e
        exact failing (tRef [c]) (tNum (u.takeWhile isDigitB)) (.inr (.inl rfl)) (.inl rfl)
          ⟨ts, by simpa [flush] using PScans.ref hst' (scans_ref hc80 (scans_digits hdu h1))⟩
      · rw [if_neg hdu]
        refine sign c _ u (tRef [c]) (ih u hlu k q [] e) (.inr (.inl rfl)) rfl fun ts h => ?_
        simpa [flush] using PScans.ref hst' (scans_ref hc80 (scans_index_none (not_starts (by simpa using hdu)) h))
    rw [if_neg hc]
    by_cases hc3 : c = 0x23
    · subst hc3
      rw [if_pos rfl]
      have hst' := plainInf_hash (p := []) (t := u) (e := e)
      by_cases hnu : startsWith nameByte u = true
      · rw [if_pos hnu]
        -- a name follows the sign
        have hne : u.takeWhile nameByte ≠ [] := by
          rcases u with _ | ⟨c, u⟩
          · simp [startsWith] at hnu
          · have : nameByte c = true := hnu
            simp [this]
        have hnm' : isName (u.takeWhile nameByte) := ⟨hne, takeWhile_all⟩
        refine failing tHash (tName (u.takeWhile nameByte)) (.inr (.inr (.inl rfl))) (.inr rfl) ?_
        have hsp := name_split u
        have hrr : ∀ b, (u.dropWhile nameByte).head? = some b → nameByte b = false := dropWhile_head
        have hll := dropWhile_length nameByte u
        generalize u.takeWhile nameByte = name' at *
        generalize u.dropWhile nameByte = r' at *
        subst hsp
        by_cases hd' : startsWith isDigitB r' = true
        · obtain ⟨ts, h1, -⟩ := ih (r'.dropWhile isDigitB) (by have := dropWhile_length isDigitB r'; omega) k q [] e
          exact ⟨_, by simpa [flush] using PScans.func hst' (scans_hash (scans_name_digits hnm' hd' h1))⟩
        · by_cases hp' : r'.head? = some 0x28
          · rcases r' with _ | ⟨c', r'⟩
            · simp at hp'
            obtain rfl : c' = 0x28 := by simpa using hp'
            obtain ⟨ts, h1⟩ := scans_some L .funcArgs ⟨[0x28], r', e⟩ trivial
            exact ⟨_, by simpa [flush] using PScans.func hst' (scans_hash (scans_lparen hnm' h1))⟩
          · obtain ⟨ts, h1, -⟩ := ih r' (by omega) k q [] e
            exact ⟨_, by simpa [flush] using PScans.func hst' (scans_hash (scans_name hnm' hrr (by simpa using hd') hp' h1))⟩
      · rw [if_neg hnu]
        refine sign 0x23 _ u tHash (ih u hlu k q [] e) (.inr (.inr (.inl rfl))) rfl fun ts h => ?_
        have hne : u.takeWhile nameByte = [] := by
          rcases u with _ | ⟨c, u⟩
          · rfl
          · have : nameByte c = false := by simpa [startsWith] using hnu
            simp [this]
        simpa [flush] using PScans.func hst' (scans_hash (scans_name_none hne h))
    rw [if_neg hc3]
    by_cases hc0 : c = 0
    · subst hc0
      have : readFrom L n k q (0 :: u) = some [] := by
        obtain ⟨n, rfl⟩ : ∃ n', n = n' + 1 := ⟨n - 1, by omega⟩
        simp [readFrom]
      rw [this]
      exact ending (by simpa [flush] using pscans_nul (L := L) (p := []) (t := u) (e := e))
    · refine textual _ (ih (c :: u) hlr k q [] e) ?_
      by_cases hquo : c = 0x27 ∨ c = 0x22 ∨ c = 0x60
      · exact .inr (.inl hquo)
      · by_cases hesc : c = 0x24 ∨ c = 0x3F
        · refine .inr (.inr ⟨hesc, ?_⟩)
          by_cases hx : u.head? = some c
          · exact hx
          · exact absurd ⟨hesc, hx⟩ hc
        · left
          simp only [not_or] at hquo hesc
          simp [plainByte, hquo, hesc, hc3, hc0]
  rw [if_neg hb3]
  by_cases hq : b = 0x27 ∨ b = 0x22 ∨ b = 0x60
  · rw [if_pos hq]
    have hb80 : b < 0x80 := by rcases hq with rfl | rfl | rfl <;> decide
    have hst := plainInf_quote (p := p) (t := t) (e := e) hq
    have hreg := quotedInf_region b hb80 h0 t (p ++ [b]) e
    cases hr : region b t with
    | some pr =>
      obtain ⟨x, u⟩ := pr
      rw [hr] at hreg
      simp only at hreg
      have hlu := region_length hr
      obtain ⟨ts, h1, h2⟩ := ih u (by omega) k q [] e
      refine ⟨_, PScans.quoted hst (scans_quoted hb80 hreg h1), ?_⟩
      intro m cur acc hm
      obtain ⟨m, rfl⟩ : ∃ m', m = m' + 1 := ⟨m - 1, by simp at hm; omega⟩
      rw [parseLoop_plain]
      have h3 := h2 m (tPlain (p ++ [b] ++ x)) (acc ++ [.plain (p ++ [b] ++ x)]) (by simp at hm; omega)
      dsimp only
      generalize readFrom L n k q u = o at h3 ⊢
      cases o with
      | none => exact h3
      | some es =>
        obtain ⟨es', h4, h5⟩ := h3
        refine ⟨.plain (p ++ [b] ++ x) :: es', by rw [h4]; simp, ?_⟩
        rw [List.append_assoc, glue_plain_append]
        refine glue_congr (glue_congr ?_)
        rw [h5, glue_plain_nil]
    | none =>
      rw [hr] at hreg
      simp only at hreg
      obtain ⟨u, e', h1, h2⟩ := hreg
      have h3 : PScans L ⟨[], u, e'⟩ [tEof] := by
        rcases u with _ | ⟨c, u⟩
        · simpa [flush] using pscans_end (L := L) (p := []) (e := e')
        · obtain rfl : c = 0 := by simpa using h2
          simpa [flush] using pscans_nul (L := L) (p := []) (t := u) (e := e')
      have h4 : Scans L .quotedPlain ⟨p, b :: t, e⟩
          [⟨.plain, .string, true, p ++ [b] ++ t.takeWhile (· ≠ 0)⟩, tEof] := by
        refine Scans.step (l' := ⟨p ++ [b] ++ t.takeWhile (· ≠ 0), u, e'⟩)
          (toks := [⟨.plain, .string, true, p ++ [b] ++ t.takeWhile (· ≠ 0)⟩]) (ts := [tEof])
          (st' := .plain) ?_ (PScans.scans (l := ⟨_, u, e'⟩) h3)
        show scanQuotedPlain _ = _
        unfold scanQuotedPlain
        unfold quotedInf at h1
        dsimp only
        rw [rune_cons_ascii hb80, next_cons_ascii hb80, h1]
        rfl
      refine ⟨_, PScans.quoted hst h4, ?_⟩
      intro m cur acc hm
      obtain ⟨m, rfl⟩ : ∃ m', m = m' + 3 := ⟨m - 3, by simp at hm; omega⟩
      refine ⟨[.plain (p ++ [b] ++ t.takeWhile (· ≠ 0))], rfl, ?_⟩
      rw [List.append_assoc, glue_plain_append]
      rfl
  · rw [if_neg hq]
    refine readsAs_text (ih t hlt k q _ e) (plainInf_byte p b t e ?_) rfl
    simp only [not_or] at hq hb
    simp [plainByte, hq, hb, hb3, h0]

/-- The parser accepts exactly the texts the reader accepts, and reads the same expressions. -/
theorem parse_read (L : GoLib) (s : Str) :
    match readTemplate L s with
    | none => ∃ e, parse L s = .error e
    | some es => ∃ es', parse L s = .ok es' ∧ glue es' = glue es := by
  obtain ⟨ts, h1, h2⟩ := readsAs L (s.length + 1) s (by omega) 0 false [] (Lex.init s).eof
  have h3 : scanAll L s = some ts := Scans.scanAll (PScans.scans (l := Lex.init s) h1)
  have h4 := h2 (ts.length + 1) ⟨.eof, .string, false, []⟩ [] (by omega)
  have h5 : parse L s = parseLoop L (ts.length + 1) ⟨ts, ⟨.eof, .string, false, []⟩, 0, dollar⟩ [] := by
    unfold parse
    rw [h3]
    rfl
  unfold readTemplate
  rw [h5]
  simp only [Bool.false_eq_true, if_false] at h4
  generalize readFrom L (s.length + 1) 0 false s = m at h4 ⊢
  cases m with
  | none => exact h4
  | some es =>
    obtain ⟨es', h6, h7⟩ := h4
    exact ⟨es', by simpa using h6, by rw [h7, glue_plain_nil]⟩

end Sqlf
