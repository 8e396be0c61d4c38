import Verif.Proofs.Loops
/-!
# Scanning a rendered template
-/

namespace Sqlf

open Lex Spec

/-! ## Scanner runs -/

/-- The scanner, started in state `st` at `l`, emits exactly `ts` (including the final EOF). -/
def Scans (L : GoLib) (st : Scan) (l : Lex) (ts : List Token) : Prop :=
  ∃ n, scanRun L n st l = some ts

theorem Scans.step {L : GoLib} {st st' : Scan} {l l' : Lex} {toks ts : List Token}
    (h : scanStep L st l = (l', toks, some st')) (h' : Scans L st' l' ts) :
    Scans L st l (toks ++ ts) := by
  obtain ⟨n, hn⟩ := h'
  exact ⟨n + 1, by simp [scanRun, h, hn]⟩

theorem Scans.last {L : GoLib} {st : Scan} {l l' : Lex} {toks : List Token}
    (h : scanStep L st l = (l', toks, none)) : Scans L st l toks :=
  ⟨1, by simp [scanRun, h]⟩

theorem Scans.scanAll {L : GoLib} {s : Str} {ts : List Token}
    (h : Scans L .plain (Lex.init s) ts) : scanAll L s = some ts := by
  obtain ⟨n, hn⟩ := h
  exact scanAll_eq hn

/-- `scanPlain` after `StartToken`. -/
def plainCont (l : Lex) : ScanRes :=
  let (l, stop) := plainInf l
  let pending : List Token := if l.advanced then [l.emit .plain .string false] else []
  match stop with
  | .ref => (l, pending, some .ref)
  | .func => (l, pending, some .func)
  | .quoted => (l, [], some .quotedPlain)
  | .eof =>
    if l.advanced then (l, pending, some .plain)
    else (l, [l.emit .eof .string false], none)

theorem scanPlain_eq (l : Lex) : scanPlain l = plainCont l.startToken := rfl

/-- As `Scans`, in the middle of plain text. -/
def PScans (L : GoLib) (l : Lex) (ts : List Token) : Prop :=
  match plainCont l with
  | (_, toks, none) => ts = toks
  | (l', toks, some st') => ∃ ts', Scans L st' l' ts' ∧ ts = toks ++ ts'

theorem PScans.scans {L : GoLib} {l : Lex} {ts : List Token} (h : PScans L l.startToken ts) :
    Scans L .plain l ts := by
  unfold PScans at h
  have h1 : scanStep L .plain l = plainCont l.startToken := scanPlain_eq l
  generalize plainCont l.startToken = r at h h1
  obtain ⟨l', toks, st⟩ := r
  cases st with
  | none => simp at h; subst h; exact Scans.last h1
  | some st' =>
    obtain ⟨ts', h2, rfl⟩ := h
    exact Scans.step h1 h2

theorem PScans.congr {L : GoLib} {l l' : Lex} {ts : List Token} (h : plainInf l = plainInf l')
    (h' : PScans L l' ts) : PScans L l ts := by
  unfold PScans plainCont at *
  rw [h]; exact h'

/-! ## Expected tokens -/

def tPlain (s : Str) : Token := ⟨.plain, .string, false, s⟩
def tEof : Token := ⟨.eof, .string, false, []⟩
def tRef (s : Str) : Token := ⟨.ref, .string, false, s⟩
def tNum (s : Str) : Token := ⟨.literal, .number, false, s⟩
def tHash : Token := ⟨.hash, .string, false, [0x23]⟩
def tName (s : Str) : Token := ⟨.name, .string, false, s⟩
def tLparen : Token := ⟨.lparen, .string, false, [0x28]⟩
def tRparen : Token := ⟨.rparen, .string, false, [0x29]⟩
def tComma : Token := ⟨.comma, .string, false, [0x2C]⟩

def flush (p : Str) : List Token := if p = [] then [] else [tPlain p]

def litTok : Lit → Token
  | .num n => ⟨.literal, .number, false, renderLit (.num n)⟩
  | .str s => ⟨.literal, .string, false, renderLit (.str s)⟩
  | .bool b => ⟨.literal, .bool, false, renderLit (.bool b)⟩
  | .nil => ⟨.literal, .nil, false, renderLit .nil⟩

def argToks : List (Nat × Lit) → List Token
  | [] => [tRparen]
  | [a] => [litTok a.2, tRparen]
  | a :: b :: t => litTok a.2 :: tComma :: argToks (b :: t)

/-- Tokens of a template that ends with the tokens `X`; `p` is pending plain text. -/
def toksX (X : List Token) : Str → List Item → List Token
  | p, [] => flush p ++ X
  | p, .text s :: is => toksX X (p ++ s) is
  | p, .esc b :: is => toksX X (p ++ [b, b]) is
  | p, .quoted q s :: is => tPlain (p ++ ([q] ++ s ++ [q])) :: toksX X [] is
  | p, .qmark :: is => flush p ++ (tRef [0x3F] :: toksX X [] is)
  | p, .dollarN n :: is => flush p ++ (tRef [0x24] :: tNum (natDigits n) :: toksX X [] is)
  | p, .callN name n :: is =>
    flush p ++ (tHash :: tName name :: tNum (natDigits n) :: toksX X [] is)
  | p, .call name args :: is =>
    flush p ++ (tHash :: tName name :: tLparen :: (argToks args ++ toksX X [] is))
  | p, .func name :: is => flush p ++ (tHash :: tName name :: toksX X [] is)

abbrev toks (p : Str) (is : List Item) : List Token := toksX [tEof] p is

/-- Well-formed items followed by the text `tail`. -/
def WFT (tail : Str) : List Item → Prop
  | [] => True
  | i :: is => i.WF ∧ i ≠ .text [] ∧ Follows i (render is ++ tail) ∧ FollowsItem i is ∧ WFT tail is

theorem wft_nil {is : List Item} (h : WF is) : WFT [] is := by
  induction is with
  | nil => trivial
  | cons i is ih =>
    obtain ⟨h1, h2, h3, h4, h5⟩ := h
    exact ⟨h1, h2, by simpa using h3, h4, ih h5⟩

/-! ## Stops of the plain loop -/

theorem plainInf_ref {p t : Str} {b : UInt8} {e : Bool} (hb : b = 0x24 ∨ b = 0x3F)
    (ht : t.head? ≠ some b) : plainInf ⟨p, b :: t, e⟩ = (⟨p, b :: t, e⟩, .ref) := by
  have hlt : b < 0x80 := by rcases hb with rfl | rfl <;> decide
  have h0 : b ≠ 0 := by rcases hb with rfl | rfl <;> decide
  rw [plainInf_eq,
    if_neg (by rw [show eofRune = (0 : UInt8).toNat from rfl, rune_eq_iff (by decide)]; exact h0),
    if_pos (by
      rw [show rDollar = (0x24 : UInt8).toNat from rfl,
        show rQuestion = (0x3F : UInt8).toNat from rfl, rune_eq_iff (by decide),
        rune_eq_iff (by decide)]
      exact hb),
    if_neg]
  rw [rune_cons_ascii hlt, peek_eq_iff hlt hlt h0]
  exact ht

theorem plainInf_esc {p t : Str} {b : UInt8} {e : Bool} (hb : b = 0x24 ∨ b = 0x3F) :
    plainInf ⟨p, b :: b :: t, e⟩ = plainInf ⟨p ++ [b, b], t, e⟩ := by
  have hlt : b < 0x80 := by rcases hb with rfl | rfl <;> decide
  have h0 : b ≠ 0 := by rcases hb with rfl | rfl <;> decide
  rw [plainInf_eq,
    if_neg (by rw [show eofRune = (0 : UInt8).toNat from rfl, rune_eq_iff (by decide)]; exact h0),
    if_pos (by
      rw [show rDollar = (0x24 : UInt8).toNat from rfl,
        show rQuestion = (0x3F : UInt8).toNat from rfl, rune_eq_iff (by decide),
        rune_eq_iff (by decide)]
      exact hb),
    if_pos (by rw [rune_cons_ascii hlt, peek_eq_iff hlt hlt h0]; rfl),
    next_cons_ascii hlt, next_cons_ascii hlt]
  simp

theorem plainInf_hash {p t : Str} {e : Bool} :
    plainInf ⟨p, 0x23 :: t, e⟩ = (⟨p, 0x23 :: t, e⟩, .func) := by
  rw [plainInf_eq, rune_cons_ascii (by decide)]
  rw [if_neg (by decide), if_neg (by decide), if_pos (by decide)]

theorem plainInf_quote {p t : Str} {q : UInt8} {e : Bool} (hq : q = 0x27 ∨ q = 0x22 ∨ q = 0x60) :
    plainInf ⟨p, q :: t, e⟩ = (⟨p, q :: t, e⟩, .quoted) := by
  rcases hq with rfl | rfl | rfl <;>
  · rw [plainInf_eq, rune_cons_ascii (by decide)]
    rw [if_neg (by decide), if_neg (by decide), if_neg (by decide), if_pos (by decide)]

theorem plainInf_end {p : Str} {e : Bool} : plainInf ⟨p, [], e⟩ = (⟨p, [], true⟩, .eof) := by
  cases e
  · rw [plainInf_eq, rune_nil]
    rw [if_neg (by decide), if_neg (by decide), if_neg (by decide), if_neg (by decide), next_nil,
      plainInf_eq, rune_nil]
    rw [if_pos (by decide)]
  · rw [plainInf_eq, rune_nil]
    rw [if_pos (by decide)]

theorem advanced_flush {p r : Str} {e : Bool} :
    (if (Lex.mk p r e).advanced then [(Lex.mk p r e).emit .plain .string false] else []) =
      flush p := by
  cases p <;> simp [advanced, flush, emit, tPlain]

theorem PScans.ref {L : GoLib} {l : Lex} {p r : Str} {e : Bool} {ts : List Token}
    (h : plainInf l = (⟨p, r, e⟩, .ref)) (h' : Scans L .ref ⟨p, r, e⟩ ts) :
    PScans L l (flush p ++ ts) := by
  unfold PScans plainCont
  rw [h]
  simp only [advanced_flush]
  exact ⟨ts, h', rfl⟩

theorem PScans.func {L : GoLib} {l : Lex} {p r : Str} {e : Bool} {ts : List Token}
    (h : plainInf l = (⟨p, r, e⟩, .func)) (h' : Scans L .func ⟨p, r, e⟩ ts) :
    PScans L l (flush p ++ ts) := by
  unfold PScans plainCont
  rw [h]
  simp only [advanced_flush]
  exact ⟨ts, h', rfl⟩

theorem PScans.quoted {L : GoLib} {l : Lex} {p r : Str} {e : Bool} {ts : List Token}
    (h : plainInf l = (⟨p, r, e⟩, .quoted)) (h' : Scans L .quotedPlain ⟨p, r, e⟩ ts) :
    PScans L l ts := by
  unfold PScans plainCont
  rw [h]
  exact ⟨ts, h', rfl⟩

theorem pscans_end {L : GoLib} {p : Str} {e : Bool} :
    PScans L ⟨p, [], e⟩ (flush p ++ [tEof]) := by
  unfold PScans plainCont
  rw [plainInf_end]
  simp only [advanced_flush]
  cases p with
  | nil => rfl
  | cons b p =>
    have : PScans L ⟨[], [], true⟩ [tEof] := by
      unfold PScans plainCont
      rw [plainInf_end]
      rfl
    exact ⟨[tEof], PScans.scans (l := ⟨b :: p, [], true⟩) this, rfl⟩

/-! ## The states after the stops -/

theorem scans_ref {L : GoLib} {p t : Str} {b : UInt8} {e : Bool} {ts : List Token} (hb : b < 0x80)
    (h : Scans L .index ⟨[b], t, e⟩ ts) : Scans L .ref ⟨p, b :: t, e⟩ (tRef [b] :: ts) := by
  refine Scans.step (l' := ⟨[b], t, e⟩) (toks := [tRef [b]]) (st' := .index) ?_ h
  show scanRef _ = _
  unfold scanRef
  simp only [startToken]
  rw [next_cons_ascii hb]
  rfl

theorem rune_not_19 {tok r : Str} {e : Bool}
    (h : ∀ b, r.head? = some b → ¬ (0x31 ≤ b ∧ b ≤ 0x39)) :
    ¬ (0x31 ≤ (Lex.mk tok r e).rune ∧ (Lex.mk tok r e).rune ≤ 0x39) := by
  cases r with
  | nil => cases e <;> (rw [rune_nil]; decide)
  | cons b r =>
    have := h b rfl
    by_cases hb : b < 0x80
    · rw [rune_cons_ascii hb]
      simp only [UInt8.le_iff_toNat_le] at this
      exact this
    · have h1 := rune_cons_hi (tok := tok) (t := r) (e := e) hb
      rintro ⟨_, h3⟩
      exact absurd (Nat.le_trans h1 h3) (by decide)

theorem scans_index_none {L : GoLib} {tok r : Str} {e : Bool} {ts : List Token}
    (h : ∀ b, r.head? = some b → ¬ (0x31 ≤ b ∧ b ≤ 0x39)) (h' : PScans L ⟨[], r, e⟩ ts) :
    Scans L .index ⟨tok, r, e⟩ ts := by
  refine Scans.step (l' := ⟨tok, r, e⟩) (toks := []) (st' := .plain) ?_ (PScans.scans h')
  show scanIndex _ = _
  unfold scanIndex
  rw [if_neg (rune_not_19 h)]

theorem mem_digits {n : Nat} {b : UInt8} (h : b ∈ natDigits n) : isDigitB b = true :=
  List.all_eq_true.mp (natDigits_all n) b h

theorem scans_index {L : GoLib} {tok r : Str} {e : Bool} {n : Nat} {ts : List Token} (hn : 1 ≤ n)
    (hr : NoDigitHead r) (h' : PScans L ⟨[], r, e⟩ ts) :
    Scans L .index ⟨tok, natDigits n ++ r, e⟩ (tNum (natDigits n) :: ts) := by
  refine Scans.step (l' := ⟨natDigits n, r, e⟩) (toks := [tNum (natDigits n)]) (st' := .plain) ?_
    (PScans.scans h')
  show scanIndex _ = _
  unfold scanIndex
  rw [if_pos]
  · have := digitsInf_digits (natDigits n) r [] e (fun b hb => mem_digits hb) hr
    unfold digitsInf at this
    simp only [startToken]
    rw [this]
    rfl
  · obtain ⟨b, t, h1, h2, h3⟩ := natDigits_head hn
    rw [h1, List.cons_append, rune_cons_ascii (UInt8.lt_of_le_of_lt h3 (by decide))]
    exact ⟨UInt8.le_iff_toNat_le.mp h2, UInt8.le_iff_toNat_le.mp h3⟩

theorem scans_quoted {L : GoLib} {p t r : Str} {q : UInt8} {e : Bool} {ts : List Token}
    (hq : q < 0x80)
    (hc : quotedInf q.toNat ⟨p ++ [q], t, e⟩ = (⟨p ++ [q] ++ r, r', e⟩, true))
    (h' : PScans L ⟨[], r', e⟩ ts) :
    Scans L .quotedPlain ⟨p, q :: t, e⟩ (tPlain (p ++ [q] ++ r) :: ts) := by
  refine Scans.step (l' := ⟨p ++ [q] ++ r, r', e⟩) (toks := [tPlain (p ++ [q] ++ r)])
    (st' := .plain) ?_ (PScans.scans h')
  show scanQuotedPlain _ = _
  unfold scanQuotedPlain
  unfold quotedInf at hc
  dsimp only
  rw [rune_cons_ascii hq, next_cons_ascii hq, hc]
  rfl

theorem scans_hash {L : GoLib} {p t : Str} {e : Bool} {ts : List Token}
    (h : Scans L .funcName ⟨[0x23], t, e⟩ ts) : Scans L .func ⟨p, 0x23 :: t, e⟩ (tHash :: ts) := by
  refine Scans.step (l' := ⟨[0x23], t, e⟩) (toks := [tHash]) (st' := .funcName) ?_ h
  show scanFunc _ = _
  unfold scanFunc
  simp only [startToken]
  rw [next_cons_ascii (by decide)]
  rfl

theorem advanced_of_ne_nil {s r : Str} {e : Bool} (h : s ≠ []) : (Lex.mk s r e).advanced = true := by
  cases s <;> simp_all [advanced]

theorem scanFuncName_eq {tok name r : Str} {e : Bool} (hn : isName name)
    (hr : ∀ b, r.head? = some b → nameByte b = false) :
    scanFuncName ⟨tok, name ++ r, e⟩ =
      (let l := decimalsInf ⟨[], r, e⟩
       if l.advanced then (l, [tName name, l.emit .literal .number false], some .plain)
       else if l.rune = rLparen then
         (l.next, [tName name, l.next.emit .lparen .string false], some .funcArgs)
       else (l, [tName name], some .plain)) := by
  have : lettersLoop (Lex.mk tok (name ++ r) e).startToken.fuel
      (Lex.mk tok (name ++ r) e).startToken = ⟨[] ++ name, r, e⟩ :=
    lettersInf_name name r [] e hn.2 hr
  unfold scanFuncName
  dsimp only
  rw [this]
  simp only [List.nil_append, advanced_of_ne_nil hn.1, Bool.not_true, Bool.false_eq_true, if_false]
  rfl

theorem digit_not_name {b : UInt8} (h : isDigitB b = true) : nameByte b = false := by
  cases hb : nameByte b
  · rfl
  · exfalso
    simp only [isDigitB, nameByte, Bool.or_eq_true, Bool.and_eq_true, decide_eq_true_eq,
      UInt8.le_iff_toNat_le, ← UInt8.toNat_inj] at h hb
    have h1 : (48 : Nat) ≤ b.toNat := h.1
    have h2 : b.toNat ≤ (57 : Nat) := h.2
    have hb : (((65 : Nat) ≤ b.toNat ∧ b.toNat ≤ 90) ∨ ((97 : Nat) ≤ b.toNat ∧ b.toNat ≤ 122)) ∨
      b.toNat = (95 : Nat) := hb
    omega

theorem digits_head {n : Nat} {r : Str} (b : UInt8) (h : (natDigits n ++ r).head? = some b) :
    isDigitB b = true := by
  cases hd : natDigits n with
  | nil => exact absurd hd (natDigits_ne_nil n)
  | cons c t =>
    rw [hd] at h
    simp at h
    exact h ▸ mem_digits (n := n) (by rw [hd]; simp)

theorem scans_callN {L : GoLib} {tok name r : Str} {n : Nat} {e : Bool} {ts : List Token}
    (hn : isName name) (hr : NoDigitHead r) (h' : PScans L ⟨[], r, e⟩ ts) :
    Scans L .funcName ⟨tok, name ++ (natDigits n ++ r), e⟩
      (tName name :: tNum (natDigits n) :: ts) := by
  refine Scans.step (l' := ⟨natDigits n, r, e⟩) (toks := [tName name, tNum (natDigits n)])
    (st' := .plain) ?_ (PScans.scans h')
  show scanFuncName _ = _
  rw [scanFuncName_eq hn (fun b hb => digit_not_name (digits_head b hb)),
    decimalsInf_digits (natDigits n) r [] e (fun b hb => mem_digits hb) hr]
  simp only [List.nil_append, advanced_of_ne_nil (natDigits_ne_nil n), if_true]
  rfl

theorem decimalsInf_none {r : Str} {e : Bool} (hr : NoDigitHead r) :
    decimalsInf ⟨[], r, e⟩ = ⟨[], r, e⟩ := by
  have := decimalsInf_digits [] r [] e (by simp) hr
  simpa using this

theorem scans_func {L : GoLib} {tok name r : Str} {e : Bool} {ts : List Token}
    (hn : isName name)
    (hr : ∀ b, r.head? = some b → nameByte b = false ∧ isDigitB b = false ∧ b ≠ 0x28 ∧ b ≠ 0)
    (h' : PScans L ⟨[], r, e⟩ ts) :
    Scans L .funcName ⟨tok, name ++ r, e⟩ (tName name :: ts) := by
  refine Scans.step (l' := ⟨[], r, e⟩) (toks := [tName name]) (st' := .plain) ?_ (PScans.scans h')
  show scanFuncName _ = _
  rw [scanFuncName_eq hn (fun b hb => (hr b hb).1), decimalsInf_none (fun b hb => (hr b hb).2.1)]
  simp only [advanced, List.isEmpty_nil, Bool.not_true, Bool.false_eq_true, if_false]
  rw [if_neg]
  rw [show rLparen = (0x28 : UInt8).toNat from rfl, rune_eq_iff_head (by decide) (by decide)]
  exact fun h => (hr _ h).2.2.1 rfl

theorem scans_lparen {L : GoLib} {tok name r : Str} {e : Bool} {ts : List Token}
    (hn : isName name) (h' : Scans L .funcArgs ⟨[0x28], r, e⟩ ts) :
    Scans L .funcName ⟨tok, name ++ (0x28 :: r), e⟩ (tName name :: tLparen :: ts) := by
  refine Scans.step (l' := ⟨[0x28], r, e⟩) (toks := [tName name, tLparen]) (st' := .funcArgs) ?_ h'
  show scanFuncName _ = _
  rw [scanFuncName_eq hn (by intro b hb; simp at hb; subst hb; decide),
    decimalsInf_none (by intro b hb; simp at hb; subst hb; decide)]
  simp only [advanced, List.isEmpty_nil, Bool.not_true, Bool.false_eq_true, if_false]
  rw [rune_cons_ascii (by decide), if_pos (by decide), next_cons_ascii (by decide)]
  rfl

/-! ## Argument lists -/

theorem funcArgs_start {L : GoLib} (k : Nat) (b : UInt8) (r tok : Str) (e : Bool) (hb : b < 0x80)
    (h0 : b ≠ 0) (hs : isSpace b.toNat = false) :
    scanFuncArgs L ⟨tok, List.replicate k 0x20 ++ b :: r, e⟩ = 
      scanFuncArgs L ⟨[], b :: r, e⟩ := by
  have h1 := skipWhitespace_blanks k b r tok e hb h0 hs
  have h2 := skipWhitespace_blanks 0 b r [] e hb h0 hs
  simp only [List.replicate_zero, List.nil_append, List.append_nil] at h2
  unfold scanFuncArgs
  rw [h1, h2]
  rfl

theorem skip_none {b : UInt8} {r tok : Str} {e : Bool} (hb : b < 0x80)
    (h0 : b ≠ 0) (hs : isSpace b.toNat = false) :
    (Lex.mk tok (b :: r) e).skipWhitespace = ⟨tok, b :: r, e⟩ := by
  have h2 := skipWhitespace_blanks 0 b r tok e hb h0 hs
  simpa using h2

theorem scans_comma {L : GoLib} {tok r : Str} {e : Bool} {ts : List Token}
    (h : Scans L .funcArgs ⟨[0x2C], r, e⟩ ts) :
    Scans L .funcArgs ⟨tok, 0x2C :: r, e⟩ (tComma :: ts) := by
  refine Scans.step (l' := ⟨[0x2C], r, e⟩) (toks := [tComma]) (st' := .funcArgs) ?_ h
  rw [show scanStep L .funcArgs = scanFuncArgs L from rfl]
  unfold scanFuncArgs
  dsimp only
  rw [skip_none (by decide) (by decide) (by decide)]
  have hru : (Lex.mk tok (0x2C :: r) e).startToken.rune = 0x2C := rune_cons_ascii (by decide)
  have hnx : (Lex.mk tok (0x2C :: r) e).startToken.next = ⟨[0x2C], r, e⟩ := next_cons_ascii (by decide)
  rw [hru, hnx, if_neg (by decide), if_pos (by decide)]
  rfl

theorem scans_rparen {L : GoLib} {tok r : Str} {e : Bool} {ts : List Token}
    (h : PScans L ⟨[], r, e⟩ ts) :
    Scans L .funcArgs ⟨tok, 0x29 :: r, e⟩ (tRparen :: ts) := by
  refine Scans.step (l' := ⟨[0x29], r, e⟩) (toks := [tRparen]) (st' := .plain) ?_ (PScans.scans h)
  rw [show scanStep L .funcArgs = scanFuncArgs L from rfl]
  unfold scanFuncArgs
  dsimp only
  rw [skip_none (by decide) (by decide) (by decide)]
  have hru : (Lex.mk tok (0x29 :: r) e).startToken.rune = 0x29 := rune_cons_ascii (by decide)
  have hnx : (Lex.mk tok (0x29 :: r) e).startToken.next = ⟨[0x29], r, e⟩ := next_cons_ascii (by decide)
  rw [hru, hnx, if_neg (by decide), if_neg (by decide), if_pos (by decide)]
  rfl

/-- An unquoted literal of an argument list. -/
theorem scanFuncArgs_bare {L : GoLib} (s r : Str) (e : Bool) (hne : s ≠ [])
    (hs : ∀ b ∈ s, b < 0x80 ∧ b ≠ 0 ∧ b ≠ 0x2C ∧ b ≠ 0x29 ∧ b ≠ 0x27 ∧ isSpace b.toNat = false)
    (hr : r.head? = some 0x2C ∨ r.head? = some 0x29) :
    scanFuncArgs L ⟨[], s ++ r, e⟩ =
      (let l : Lex := ⟨s, r, e⟩
       if s = lit "true" ∨ s = lit "false" then
        (l, [l.emit .literal .bool false], some .funcArgs)
      else if s = lit "null" ∨ s = lit "nil" then
        (l, [l.emit .literal .nil false], some .funcArgs)
      else if (parseFloat L s).isSome then
        (l, [l.emit .literal .number false], some .funcArgs)
      else (l, [l.emit .name .string true], some .funcArgs)) := by
  have ha := argInf_text s r [] e (fun b hb => ⟨(hs b hb).1, (hs b hb).2.1, (hs b hb).2.2.1,
    (hs b hb).2.2.2.1⟩) hr
  unfold argInf at ha
  cases s with
  | nil => exact absurd rfl hne
  | cons b s =>
    obtain ⟨h1, h2, h3, h4, h5, h6⟩ := hs b (by simp)
    unfold scanFuncArgs
    dsimp only
    rw [List.cons_append, skip_none h1 h2 h6]
    rw [List.cons_append] at ha
    have ha : argLoop (Lex.mk [] (b :: (s ++ r)) e).startToken.fuel
      (Lex.mk [] (b :: (s ++ r)) e).startToken = ⟨[] ++ b :: s, r, e⟩ := ha
    rw [ha]
    have e1 : ∀ {c : UInt8}, c < 0x80 →
        ((Lex.mk [] (b :: (s ++ r)) e).startToken.rune = c.toNat ↔ b = c) := rune_eq_iff
    rw [if_neg (by rw [show eofRune = (0 : UInt8).toNat from rfl, e1 (by decide)]; exact h2),
      if_neg (by rw [show rComma = (0x2C : UInt8).toNat from rfl, e1 (by decide)]; exact h3),
      if_neg (by rw [show rRparen = (0x29 : UInt8).toNat from rfl, e1 (by decide)]; exact h4),
      if_neg (by rw [show rSQuote = (0x27 : UInt8).toNat from rfl, e1 (by decide)]; exact h5)]
    simp only [List.nil_append, advanced_of_ne_nil (List.cons_ne_nil b s), if_true]

theorem digit_facts {b : UInt8} (h : isDigitB b = true) :
    b < 0x80 ∧ b ≠ 0 ∧ b ≠ 0x2C ∧ b ≠ 0x29 ∧ b ≠ 0x27 ∧ isSpace b.toNat = false := by
  simp only [isDigitB, Bool.and_eq_true, decide_eq_true_eq] at h
  have key : ∀ n : Fin 256, (0x30 : UInt8) ≤ UInt8.ofNat n.val ∧ UInt8.ofNat n.val ≤ 0x39 →
      UInt8.ofNat n.val < 0x80 ∧ UInt8.ofNat n.val ≠ 0 ∧ UInt8.ofNat n.val ≠ 0x2C ∧
      UInt8.ofNat n.val ≠ 0x29 ∧ UInt8.ofNat n.val ≠ 0x27 ∧
      isSpace (UInt8.ofNat n.val).toNat = false := by decide +kernel
  have := key ⟨b.toNat, b.toNat_lt⟩
  simp only [UInt8.ofNat_toNat] at this
  exact this h

theorem parseFloat_digits (L : GoLib) {n : Nat} (hn : n < 10 ^ 15) :
    parseFloat L (natDigits n) = some (.nat n) := by
  have h1 : isShortNat (natDigits n) = true := by
    simp only [isShortNat, natDigits_all, Bool.true_and, Bool.and_eq_true, decide_eq_true_eq]
    exact ⟨List.length_pos_iff.mpr (natDigits_ne_nil n), (natDigits_length_le (by omega)).mpr hn⟩
  simp [parseFloat, h1, digitsVal_natDigits]

theorem digits_ne_word {n : Nat} {b : UInt8} {t : Str} (hb : isDigitB b = false) :
    natDigits n ≠ b :: t := by
  intro h
  have := mem_digits (n := n) (b := b) (by rw [h]; simp)
  rw [hb] at this
  exact absurd this (by simp)

/-- One literal of an argument list. -/
theorem scans_lit {L : GoLib} {a : Nat × Lit} {tok r : Str} {e : Bool} {ts : List Token}
    (ha : a.2.WF) (hr : r.head? = some 0x2C ∨ r.head? = some 0x29)
    (h : ∀ tok, Scans L .funcArgs ⟨tok, r, e⟩ ts) :
    Scans L .funcArgs ⟨tok, renderArg a ++ r, e⟩ (litTok a.2 :: ts) := by
  obtain ⟨k, a⟩ := a
  simp only [renderArg, List.append_assoc]
  -- reduce to no blanks, via the first byte of the literal
  have start : ∀ (b : UInt8) (s : Str), renderLit a = b :: s → b < 0x80 → b ≠ 0 →
      isSpace b.toNat = false →
      (∀ l' st', scanStep L .funcArgs ⟨[], renderLit a ++ r, e⟩ = (l', st') →
        scanStep L .funcArgs ⟨tok, List.replicate k 0x20 ++ (renderLit a ++ r), e⟩ = (l', st')) := by
    intro b s hbs h1 h2 h3 l' st' hst
    rw [← hst]
    show scanFuncArgs L _ = scanFuncArgs L _
    rw [hbs, List.cons_append]
    exact funcArgs_start k b _ tok e h1 h2 h3
  have bare : ∀ (b : UInt8) (s : Str), renderLit a = b :: s →
      (∀ b ∈ renderLit a, b < 0x80 ∧ b ≠ 0 ∧ b ≠ 0x2C ∧ b ≠ 0x29 ∧ b ≠ 0x27 ∧
        isSpace b.toNat = false) →
      (scanFuncArgs L ⟨[], renderLit a ++ r, e⟩ =
        (⟨renderLit a, r, e⟩, [litTok a], some .funcArgs)) →
      Scans L .funcArgs ⟨tok, List.replicate k 0x20 ++ (renderLit a ++ r), e⟩ (litTok a :: ts) := by
    intro b s hbs hall hsc
    have hb := hall b (by rw [hbs]; simp)
    exact Scans.step (start b s hbs hb.1 hb.2.1 hb.2.2.2.2.2 _ _ hsc) (h _)
  cases a with
  | num n =>
    have hn : n < 10 ^ 15 := ha
    cases hd : natDigits n with
    | nil => exact absurd hd (natDigits_ne_nil n)
    | cons b s =>
      refine bare b s hd (fun b hb => digit_facts (mem_digits hb)) ?_
      rw [show renderLit (.num n) = natDigits n from rfl,
        scanFuncArgs_bare _ _ _ (natDigits_ne_nil n) (fun b hb => digit_facts (mem_digits hb)) hr]
      dsimp only
      rw [if_neg (by
          rintro (h | h)
          · exact digits_ne_word (by decide) h
          · exact digits_ne_word (by decide) h),
        if_neg (by
          rintro (h | h)
          · exact digits_ne_word (by decide) h
          · exact digits_ne_word (by decide) h),
        if_pos (by rw [parseFloat_digits L hn]; rfl)]
      rfl
  | bool v =>
    cases v
    · refine bare _ _ rfl (by decide) ?_
      rw [scanFuncArgs_bare _ _ _ (by decide) (by decide) hr]
      rw [if_pos (by decide)]; rfl
    · refine bare _ _ rfl (by decide) ?_
      rw [scanFuncArgs_bare _ _ _ (by decide) (by decide) hr]
      rw [if_pos (by decide)]; rfl
  | nil =>
    refine bare _ _ rfl (by decide) ?_
    rw [scanFuncArgs_bare _ _ _ (by decide) (by decide) hr]
    rw [if_neg (by decide), if_pos (by decide)]; rfl
  | str s =>
    have hs : 0 ∉ s := ha
    have h1 : scanFuncArgs L ⟨[], renderLit (.str s) ++ r, e⟩ =
        (⟨[], renderLit (.str s) ++ r, e⟩, [], some .funcArgQuoted) := by
      rw [show renderLit (.str s) ++ r = 0x27 :: (escapeQuotes s ++ [0x27] ++ r) from rfl]
      unfold scanFuncArgs
      dsimp only
      rw [skip_none (by decide) (by decide) (by decide)]
      have hru : (Lex.mk [] (0x27 :: (escapeQuotes s ++ [0x27] ++ r)) e).startToken.rune = 0x27 :=
        rune_cons_ascii (by decide)
      rw [hru, if_neg (by decide), if_neg (by decide), if_neg (by decide),
        if_pos (by decide)]
      rfl
    refine Scans.step (toks := []) (start 0x27 _ rfl (by decide) (by decide) (by decide) _ _ h1) ?_
    refine Scans.step (toks := [litTok (.str s)]) (l' := ⟨renderLit (.str s), r, e⟩)
      (st' := .funcArgs) ?_ (h _)
    show scanFuncArgQuoted _ = _
    have hq : r.head? ≠ some 0x27 := by rcases hr with h | h <;> (rw [h]; decide)
    have := quotedInf_escaped s r [0x27] e hs hq
    unfold quotedInf at this
    unfold scanFuncArgQuoted
    simp only [renderLit, List.cons_append, List.nil_append, List.append_assoc]
    rw [rune_cons_ascii (by decide), next_cons_ascii (by decide)]
    simp only [List.nil_append]
    rw [show (0x27 : UInt8).toNat = rSQuote from rfl, this]
    simp [emit, litTok, renderLit]

theorem scans_args {L : GoLib} (args : List (Nat × Lit)) {tok r : Str} {e : Bool} {ts : List Token}
    (ha : ∀ a ∈ args, a.2.WF) (h : PScans L ⟨[], r, e⟩ ts) :
    Scans L .funcArgs ⟨tok, renderArgs args ++ r, e⟩ (argToks args ++ ts) := by
  induction args generalizing tok with
  | nil => exact scans_rparen h
  | cons a args ih =>
    cases args with
    | nil =>
      simp only [renderArgs, List.append_assoc, argToks, List.cons_append, List.nil_append]
      exact scans_lit (ha a (by simp)) (Or.inr rfl) (fun tok => scans_rparen h)
    | cons b t =>
      simp only [renderArgs, List.append_assoc, argToks, List.cons_append]
      refine scans_lit (ha a (by simp)) (Or.inl rfl) (fun tok => ?_)
      show Scans L .funcArgs ⟨tok, 0x2C :: (renderArgs (b :: t) ++ r), e⟩ _
      exact scans_comma (ih (fun x hx => ha x (by simp [hx])))

/-! ## Whole templates -/

theorem render_cons (i : Item) (is : List Item) : render (i :: is) = renderItem i ++ render is := rfl

theorem asciiHead_render {i : Item} {is : List Item} {tail : Str} (hi : i.WF)
    (h : ∀ s, i ≠ .text s) : AsciiHead (render (i :: is) ++ tail) := by
  rw [render_cons]
  cases i with
  | text s => exact absurd rfl (h s)
  | quoted q s =>
    refine asciiHead_cons ?_
    rcases hi with ⟨rfl, _⟩ | ⟨rfl | rfl, _⟩ <;> decide
  | esc b => refine asciiHead_cons ?_; rcases hi with rfl | rfl <;> decide
  | _ => exact asciiHead_cons (by decide)

/-- The scanner splits a rendered template into the expected tokens. -/
theorem pscans_render (L : GoLib) (is : List Item) (tail : Str) (X : List Token)
    (hw : WFT tail is) (ht : AsciiHead tail)
    (e : Bool) (hX : ∀ p, PScans L ⟨p, tail, e⟩ (flush p ++ X)) (p : Str) :
    PScans L ⟨p, render is ++ tail, e⟩ (toksX X p is) := by
  induction is generalizing p with
  | nil => exact hX p
  | cons i is ih =>
    obtain ⟨hi, hne, hf, hfi, hw'⟩ := id hw
    rw [render_cons, List.append_assoc]
    cases i with
    | text s =>
      simp only [toksX, renderItem]
      refine PScans.congr (plainInf_text s (render is ++ tail) p e hi ?_) (ih hw' _)
      cases is with
      | nil => exact ht
      | cons j js =>
        refine asciiHead_render hw'.1 ?_
        rintro s rfl
        exact hfi
    | esc b =>
      simp only [toksX, renderItem, List.cons_append, List.nil_append]
      exact PScans.congr (plainInf_esc hi) (ih hw' _)
    | quoted q s =>
      simp only [toksX, renderItem, List.cons_append, List.nil_append, List.append_assoc]
      rcases hi with ⟨rfl, t, rfl, h0⟩ | ⟨hq, hqs, h0⟩
      · refine PScans.quoted (plainInf_quote (Or.inl rfl)) ?_
        have := scans_quoted (L := L) (p := p) (q := 0x27) (e := e) (r := escapeQuotes t ++ [0x27])
          (t := escapeQuotes t ++ 0x27 :: (render is ++ tail)) (r' := render is ++ tail) (by decide)
          (by
            have := quotedInf_escaped t (render is ++ tail) (p ++ [0x27]) e h0 (hf rfl)
            rw [show (0x27 : UInt8).toNat = rSQuote from rfl, this]; simp) (ih hw' _)
        simpa using this
      · have hlt : q < 0x80 := by rcases hq with rfl | rfl <;> decide
        have hn0 : q ≠ 0 := by rcases hq with rfl | rfl <;> decide
        refine PScans.quoted (plainInf_quote (Or.inr hq)) ?_
        have := scans_quoted (L := L) (p := p) (q := q) (e := e) (r := s ++ [q])
          (t := s ++ q :: (render is ++ tail)) (r' := render is ++ tail) hlt
          (by
            rw [quotedInf_text q s (q :: (render is ++ tail)) (p ++ [q]) e hlt
              (fun b hb => ⟨fun hh => hqs (hh ▸ hb), fun hh => h0 (hh ▸ hb)⟩) (asciiHead_cons hlt),
              quotedInf_close q _ _ _ hlt hn0 (by intro hh; rcases hq with rfl | rfl <;> simp at hh)]
            simp) (ih hw' _)
        simpa using this
    | qmark =>
      simp only [toksX, renderItem]
      refine PScans.ref (plainInf_ref (Or.inr rfl) (fun h => (hf _ h).1 rfl)) ?_
      exact scans_ref (by decide) (scans_index_none (fun b hb => (hf b hb).2) (ih hw' _))
    | dollarN n =>
      simp only [toksX, renderItem, List.append_assoc]
      show PScans L ⟨p, 0x24 :: (natDigits n ++ (render is ++ tail)), e⟩ _
      refine PScans.ref (plainInf_ref (Or.inl rfl) (fun h => ?_)) ?_
      · have := digits_head _ h; simp [isDigitB] at this
      · exact scans_ref (by decide) (scans_index hi.1 hf (ih hw' _))
    | callN name n =>
      simp only [toksX, renderItem, List.append_assoc]
      show PScans L ⟨p, 0x23 :: (name ++ (natDigits n ++ (render is ++ tail))), e⟩ _
      exact PScans.func plainInf_hash (scans_hash (scans_callN hi.1 hf (ih hw' _)))
    | call name args =>
      simp only [toksX, renderItem, List.append_assoc]
      show PScans L ⟨p, 0x23 :: (name ++ (0x28 :: (renderArgs args ++ (render is ++ tail)))), e⟩ _
      exact PScans.func plainInf_hash (scans_hash (scans_lparen hi.1
        (scans_args args hi.2 (ih hw' _))))
    | func name =>
      simp only [toksX, renderItem, List.append_assoc]
      show PScans L ⟨p, 0x23 :: (name ++ (render is ++ tail)), e⟩ _
      exact PScans.func plainInf_hash (scans_hash (scans_func hi hf (ih hw' _)))

theorem scanAll_renderX (L : GoLib) (is : List Item) (tail : Str) (X : List Token)
    (hw : WFT tail is) (ht : AsciiHead tail)
    (hX : ∀ p, PScans L ⟨p, tail, (render is ++ tail).isEmpty⟩ (flush p ++ X)) :
    scanAll L (render is ++ tail) = some (toksX X [] is) :=
  Scans.scanAll (PScans.scans (l := Lex.init (render is ++ tail))
    (pscans_render L is tail X hw ht _ hX []))

theorem scanAll_render (L : GoLib) (is : List Item) (hw : WF is) :
    scanAll L (render is) = some (toks [] is) := by
  have := scanAll_renderX L is [] [tEof] (wft_nil hw) asciiHead_nil (fun p => pscans_end)
  simpa using this

end Sqlf
