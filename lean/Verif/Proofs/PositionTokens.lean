import Verif.Proofs.PositionPlace
/-!
# Tokens are where they say
-/

namespace Sqlf

open Spec

/-- What is true of a token of the template `s`. -/
structure TokOk (s : Str) (t : GToken) : Prop where
  le : t.start ≤ t.end_
  len : t.end_ ≤ s.length
  lit : t.lit = (s.take t.end_).drop t.start
  pos : t.pos = placeAt s t.start
  lt : t.typ ≠ .eof → t.start < t.end_
  begins : Begins t.typ (s.drop t.start)
  ref : t.typ = .ref → t.lit = Sqlf.lit "$" ∨ t.lit = Sqlf.lit "?"
  hash : t.typ = .hash → t.lit = Sqlf.lit "#"

/-- Tokens of `s` from byte `lo` on, one after the other, up to the token at the end. -/
inductive Chain (s : Str) : Nat → List GToken → Prop where
  | last {lo t} : TokOk s t → lo ≤ t.start → t.typ = .eof → Chain s lo [t]
  | cons {lo t ts} : TokOk s t → lo ≤ t.start → t.typ ≠ .eof → Chain s t.end_ ts →
      (t.typ = .hash → ∀ n ∈ ts.head?, n.typ = .name → n.start = t.end_) → Chain s lo (t :: ts)

theorem Chain.mono {s : Str} {a b : Nat} {ts : List GToken} (h : Chain s b ts) (hab : a ≤ b) : Chain s a ts := by
  cases h with
  | last h1 h2 h3 => exact .last h1 (Nat.le_trans hab h2) h3
  | cons h1 h2 h3 h4 h5 => exact .cons h1 (Nat.le_trans hab h2) h3 h4 h5

theorem Chain.ne_nil {s : Str} {a : Nat} {ts : List GToken} (h : Chain s a ts) : ts ≠ [] := by
  cases h <;> simp

/-- The lexer is inside a token that began at its start. -/
structure Started (g : GLex) : Prop where
  placed : Placed g
  start : g.start.place = placeAt g.input g.start.offset

theorem Placed.started {g : GLex} (h : Placed g) : Started g.startToken := ⟨h.startToken, h.place⟩

theorem Nexts.started {g g' : GLex} (h : Nexts g g') (hs : Started g) : Started g' :=
  ⟨h.placed hs.placed, by rw [h.start, h.input]; exact hs.start⟩

theorem rune_offset_lt {g : GLex} (h : g.WF) (h0 : g.rune ≠ eofRune) (he : g.rune ≠ runeError) :
    g.current.offset < g.input.length := by
  rcases h.here with ⟨_, _, h1 | h1⟩ | ⟨h1, _⟩
  · exact absurd h1 h0
  · exact absurd h1 he
  · exact h1

/-- The rune read is an ASCII byte of the input. -/
theorem ascii_at {g : GLex} (h : g.WF) (b : UInt8) (hb : b < 0x80) (h0 : b ≠ 0) (hr : g.rune = b.toNat) :
    g.input.drop g.current.offset = b :: g.input.drop (g.current.offset + 1) ∧ g.width = 1 := by
  have hbn : b.toNat < 128 := UInt8.lt_iff_toNat_lt.mp hb
  have hl : g.current.offset < g.input.length := by
    refine rune_offset_lt h ?_ ?_
    · intro he
      rw [hr] at he
      exact h0 (UInt8.toNat_inj.mp he)
    · intro he
      rw [hr] at he
      have he' : b.toNat = 65533 := he
      omega
  have hd : (g.rune, g.width) = decodeRune (g.input.drop g.current.offset) := by
    rcases h.here with ⟨h1, _⟩ | ⟨_, h2⟩
    · omega
    · exact h2
  rw [drop_cons_of_lt hl] at hd ⊢
  by_cases hc : g.input[g.current.offset] < 0x80
  · rw [decodeRune_ascii _ hc] at hd
    have h1 : g.rune = (g.input[g.current.offset]).toNat := congrArg Prod.fst hd
    have h2 : g.width = 1 := congrArg Prod.snd hd
    rw [hr] at h1
    rw [UInt8.toNat_inj.mp h1]
    exact ⟨rfl, h2⟩
  · have := (decodeRune_hi (g.input.drop (g.current.offset + 1)) hc).1
    rw [← hd] at this
    have h' : 128 ≤ g.rune := this
    rw [hr] at h'
    have h'' : 128 ≤ b.toNat := h'
    omega

/-- `Next` from an ASCII byte goes on by one. -/
theorem next_ascii {g : GLex} (h : g.WF) (b : UInt8) (hb : b < 0x80) (h0 : b ≠ 0) (hr : g.rune = b.toNat) :
    g.next.current.offset = g.current.offset + 1 ∧ g.current.offset < g.input.length := by
  obtain ⟨h1, h2⟩ := ascii_at h b hb h0 hr
  have hl : g.current.offset < g.input.length := by
    rcases Nat.lt_or_ge g.current.offset g.input.length with hl | hl
    · exact hl
    · rw [List.drop_eq_nil_of_le hl] at h1; exact absurd h1 (by simp)
  rw [GLex.next_mid hl, h2]
  exact ⟨rfl, hl⟩

/-- The token of one ASCII byte. -/
theorem text_one {s : Str} {o : Nat} {b : UInt8} {t : Str} (h : s.drop o = b :: t) :
    (s.take (o + 1)).drop o = [b] := by
  have hl : o < s.length := by
    rcases Nat.lt_or_ge o s.length with hl | hl
    · exact hl
    · rw [List.drop_eq_nil_of_le hl] at h; exact absurd h (by simp)
  rw [drop_cons_of_lt hl] at h
  rw [List.take_succ_eq_append_getElem hl, List.drop_append, List.drop_eq_nil_of_le (by simp; omega)]
  have : o - (s.take o).length = 0 := by simp; omega
  rw [this]
  simpa using (List.cons.inj h).1

/-- The token emitted now, as long as its special conditions hold. -/
theorem Started.tokOk {g : GLex} (h : Started g) (t : TokType) (k : LitKind) (bad : Bool)
    (hlt : t ≠ .eof → g.start.offset < g.current.offset) (hb : Begins t (g.input.drop g.start.offset))
    (hr : t = .ref → g.text = lit "$" ∨ g.text = lit "?") (hh : t = .hash → g.text = lit "#") :
    TokOk g.input (g.emit t k bad) :=
  ⟨h.placed.wf.le, h.placed.wf.len, rfl, h.start, hlt, hb, hr, hh⟩

/-- A token of more than one type of text. -/
theorem Started.tokSome {g : GLex} (h : Started g) (t : TokType) (k : LitKind) (bad : Bool)
    (ht : t = .plain ∨ t = .literal ∨ t = .name) (hlt : g.start.offset < g.current.offset) :
    TokOk g.input (g.emit t k bad) := by
  have hne : g.input.drop g.start.offset ≠ [] := by
    intro he
    have := congrArg List.length he
    have := h.placed.wf.len
    simp at *
    omega
  refine h.tokOk t k bad (fun _ => hlt) ?_ ?_ ?_
  · rcases ht with rfl | rfl | rfl <;> exact hne
  · intro he; subst he; rcases ht with h | h | h <;> cases h
  · intro he; subst he; rcases ht with h | h | h <;> cases h

/-- A token of one ASCII byte, emitted after `StartToken` and `Next`. -/
theorem Started.tokOne {g : GLex} (h : Started g) (hs : g.start.offset = g.current.offset) (t : TokType)
    (b : UInt8) (hb : b < 0x80) (h0 : b ≠ 0) (hr : g.rune = b.toNat)
    (hB : ∀ s, Begins t (b :: s)) (hR : t = .ref → [b] = lit "$" ∨ [b] = lit "?") (hH : t = .hash → [b] = lit "#") :
    TokOk g.input (g.next.emit t .string false) ∧ g.next.current.offset = g.current.offset + 1 := by
  obtain ⟨h1, _⟩ := ascii_at h.placed.wf b hb h0 hr
  obtain ⟨h2, h3⟩ := next_ascii h.placed.wf b hb h0 hr
  have hst := (Nexts.step (Nexts.refl g.next)).started h
  have hti : g.next.text = [b] := by
    unfold GLex.text
    rw [g.next_start, g.next_input, h2, hs]
    exact text_one h1
  have := hst.tokOk t .string false (fun _ => by rw [g.next_start, h2, hs]; omega)
    (by rw [g.next_start, g.next_input, hs, h1]; exact hB _)
    (by rw [hti]; exact hR) (by rw [hti]; exact hH)
  rw [g.next_input] at this
  exact ⟨this, h2⟩

/-! ## Loops: what they stop at, and that they move -/

theorem gplainLoop_stop (n : Nat) (g : GLex) (h : g.WF) (hn : g.toLex.measure < n) :
    ((gplainLoop n g).2 = .eof → (gplainLoop n g).1.rune = eofRune) ∧
    ((gplainLoop n g).2 = .ref → (gplainLoop n g).1.rune = rDollar ∨ (gplainLoop n g).1.rune = rQuestion) ∧
    ((gplainLoop n g).2 = .func → (gplainLoop n g).1.rune = rHash) ∧
    ((gplainLoop n g).2 = .quoted → (gplainLoop n g).1.rune = rSQuote ∨ (gplainLoop n g).1.rune = rDQuote ∨
      (gplainLoop n g).1.rune = rBacktick) := by
  induction n generalizing g with
  | zero => omega
  | succ n ih =>
    unfold gplainLoop
    dsimp only
    split
    · rename_i h0
      exact ⟨fun _ => h0, by simp, by simp, by simp⟩
    · rename_i h0
      have hm : g.next.toLex.measure < g.toLex.measure := by
        rw [h.toLex_next]; exact Lex.measure_next_lt _ (by rw [h.rune_eq]; exact h0)
      have hm2 : g.next.next.toLex.measure ≤ g.next.toLex.measure := by
        rw [h.next.toLex_next]; exact Lex.measure_next_le _
      split
      · rename_i h1
        split
        · exact ih _ h.next.next (by omega)
        · exact ⟨by simp, fun _ => h1, by simp, by simp⟩
      · split
        · rename_i h2
          exact ⟨by simp, by simp, fun _ => h2, by simp⟩
        · split
          · rename_i h3
            exact ⟨by simp, by simp, by simp, fun _ => h3⟩
          · exact ih _ h.next (by omega)

theorem GLex.WF.measure_lt {g : GLex} (_ : g.WF) : g.toLex.measure < g.fuel := by
  rw [← g.fuel_eq]; exact Lex.measure_le_fuel _

/-- The end of the template, or a zero byte. -/
theorem begins_eof {g : GLex} (h : g.WF) (h0 : g.rune = eofRune) :
    Begins .eof (g.input.drop g.current.offset) := by
  rcases h.here with ⟨h1, _⟩ | ⟨h1, h2⟩
  · left; rw [h1, List.drop_length]
  · right
    rw [drop_cons_of_lt h1] at h2 ⊢
    have hr : (decodeRune (g.input[g.current.offset] :: g.input.drop (g.current.offset + 1))).1 = eofRune := by
      rw [← h2]; exact h0
    by_cases hc : g.input[g.current.offset] < 0x80
    · rw [decodeRune_ascii _ hc] at hr
      have : g.input[g.current.offset] = 0 := UInt8.toNat_inj.mp hr
      rw [this]
      exact ⟨_, rfl⟩
    · have := (decodeRune_hi (g.input.drop (g.current.offset + 1)) hc).1
      rw [hr] at this
      exact absurd this (by decide)

/-! ## Scan functions -/

/-- What a scan function may rely on. -/
def StepPre (st : Scan) (g : GLex) : Prop :=
  match st with
  | .ref => g.rune = rDollar ∨ g.rune = rQuestion
  | .func => g.rune = rHash
  | .quotedPlain => Started g ∧ (g.rune = rSQuote ∨ g.rune = rDQuote ∨ g.rune = rBacktick)
  | .funcArgQuoted => Started g ∧ g.rune = rSQuote
  | _ => True

/-- No token before this byte is emitted from now on. -/
def stepFrom (st : Scan) (g : GLex) : Nat :=
  match st with
  | .quotedPlain => g.start.offset
  | .funcArgQuoted => g.start.offset
  | _ => g.current.offset

/-- The tokens follow from a scan function that can be the next: the first token is not a name, or is at once. -/
def HeadOk (st : Scan) (g : GLex) (toks : List GToken) : Prop :=
  ∀ n ∈ toks.head?, n.typ = .name →
    match st with
    | .funcName => n.start = g.current.offset
    | .funcArgs => True
    | .funcArgQuoted => True
    | _ => False

/-- A step with no token. -/
theorem headOk_nil {st st' : Scan} {g g' : GLex} {toks : List GToken} (h : HeadOk st' g' toks)
    (hs : st ≠ .funcName ∧ st' ≠ .funcName ∧ st' ≠ .funcArgs ∧ st' ≠ .funcArgQuoted) : HeadOk st g toks := by
  intro n hn ht
  have := h n hn ht
  cases st' <;> simp_all

theorem headOk_of_first {st : Scan} {g : GLex} {t : GToken} {ts : List GToken} (h : t.typ ≠ .name) :
    HeadOk st g (t :: ts) := by
  intro n hn ht
  simp at hn
  subst hn
  exact absurd ht h

theorem headOk_name {g : GLex} {t : GToken} {ts : List GToken} (h : t.start = g.current.offset) :
    HeadOk .funcName g (t :: ts) := by
  intro n hn _
  simp at hn
  subst hn
  exact h

/-- What is proved about one scan function. -/
def StepOk (st : Scan) (g : GLex) (r : GScanRes) : Prop :=
  match r.2.2 with
  | none => Chain g.input (stepFrom st g) r.2.1 ∧ HeadOk st g r.2.1
  | some st' => StepPre st' r.1 ∧ ∀ rest, Chain g.input (stepFrom st' r.1) rest → HeadOk st' r.1 rest →
      Chain g.input (stepFrom st g) (r.2.1 ++ rest) ∧ HeadOk st g (r.2.1 ++ rest)

theorem Moves.input {a b : GLex} (h : Moves a b) : b.input = a.input := by
  induction h with
  | refl => rfl
  | next _ ih => rw [ih, GLex.next_input]
  | start _ ih => exact ih

/-- A step that emits one token which is not a hash and ends where the lexer is now. -/
theorem stepOk_one {st st' : Scan} {g g' : GLex} {t : GToken} (hpre : StepPre st' g') (ht : TokOk g.input t)
    (hfrom : stepFrom st g ≤ t.start) (hend : t.end_ ≤ stepFrom st' g') (heof : t.typ ≠ .eof)
    (hname : t.typ = .name → HeadOk st g [t])
    (hhash : t.typ = .hash → st' = .funcName ∧ t.end_ = g'.current.offset) :
    StepOk st g (g', [t], some st') := by
  refine ⟨hpre, fun rest hc hh => ⟨.cons ht hfrom heof (hc.mono hend) ?_, ?_⟩⟩
  · intro h n hn hnt
    obtain ⟨rfl, h2⟩ := hhash h
    rw [h2]
    exact hh n hn hnt
  · by_cases hn : t.typ = .name
    · intro n hm hnt
      exact hname hn n (by simpa using hm) hnt
    · exact headOk_of_first hn

/-- A step without a token. -/
theorem stepOk_none {st st' : Scan} {g g' : GLex} (hpre : StepPre st' g')
    (hfrom : stepFrom st g ≤ stepFrom st' g') (hh : ∀ rest, HeadOk st' g' rest → HeadOk st g rest) :
    StepOk st g (g', [], some st') :=
  ⟨hpre, fun rest hc hr => ⟨hc.mono hfrom, hh rest hr⟩⟩

theorem gscanPlain_ok (g : GLex) (h : Placed g) : StepOk .plain g (gscanPlain g) := by
  unfold gscanPlain
  dsimp only
  have hx := gplainLoop_nexts g.startToken.fuel g.startToken
  have hstop := gplainLoop_stop g.startToken.fuel g.startToken h.wf.startToken h.wf.startToken.measure_lt
  generalize gplainLoop g.startToken.fuel g.startToken = r at hx hstop
  obtain ⟨g', stop⟩ := r
  dsimp only at hx hstop ⊢
  obtain ⟨s1, s2, s3, s4⟩ := hstop
  have hs' : Started g' := hx.started h.started
  have hin : g'.input = g.input := hx.input
  have hso : g'.start.offset = g.current.offset := by rw [hx.start]; rfl
  have hle : g.current.offset ≤ g'.current.offset := hx.le
  have htok : g'.advanced = true → TokOk g.input (g'.emit .plain .string false) := by
    intro ha
    have := hs'.tokSome .plain .string false (.inl rfl) (by simpa [GLex.advanced] using ha)
    rwa [hin] at this
  have hpend : ∀ st', (st' = .ref ∨ st' = .func ∨ st' = .plain) → StepPre st' g' →
      StepOk .plain g (g', if g'.advanced = true then [g'.emit .plain .string false] else [], some st') := by
    intro st' hst hpre
    split
    · rename_i ha
      refine stepOk_one hpre (htok ha) ?_ ?_ (by simp [GLex.emit]) (by simp [GLex.emit]) (by simp [GLex.emit])
      · show g.current.offset ≤ g'.start.offset; omega
      · rcases hst with rfl | rfl | rfl <;> exact Nat.le_refl _
    · refine stepOk_none hpre ?_ ?_
      · rcases hst with rfl | rfl | rfl <;> exact hle
      · intro rest hr
        exact headOk_nil hr (by rcases hst with rfl | rfl | rfl <;> simp)
  cases stop with
  | ref => exact hpend _ (.inl rfl) (s2 rfl)
  | func => exact hpend _ (.inr (.inl rfl)) (s3 rfl)
  | quoted =>
    refine stepOk_none ⟨hs', s4 rfl⟩ ?_ ?_
    · show g.current.offset ≤ g'.start.offset; omega
    · intro rest hr; exact headOk_nil hr (by simp)
  | eof =>
    by_cases ha : g'.advanced = true
    · have := hpend .plain (.inr (.inr rfl)) trivial
      dsimp only
      rw [if_pos ha] at this ⊢
      rw [if_pos ha]
      exact this
    · dsimp only
      rw [if_neg ha]
      have heq : g'.start.offset = g'.current.offset := by
        have := hs'.placed.wf.le
        simp [GLex.advanced] at ha
        omega
      have ht := hs'.tokOk .eof .string false (fun hh => absurd rfl hh)
        (by rw [heq]; exact begins_eof hs'.placed.wf (s1 rfl)) (by simp) (by simp)
      rw [hin] at ht
      refine ⟨.last ht ?_ rfl, headOk_of_first (by simp [GLex.emit])⟩
      show g.current.offset ≤ g'.start.offset; omega

theorem gscanRef_ok (g : GLex) (h : Placed g) (hp : g.rune = rDollar ∨ g.rune = rQuestion) :
    StepOk .ref g (gscanRef g) := by
  unfold gscanRef
  dsimp only
  have key : TokOk g.input (g.startToken.next.emit .ref .string false) ∧
      g.startToken.next.current.offset = g.current.offset + 1 := by
    rcases hp with hp | hp
    · exact h.started.tokOne rfl .ref 0x24 (by decide) (by decide) hp
        (fun s => .inl ⟨s, rfl⟩) (fun _ => .inl (by decide)) (fun hh => by cases hh)
    · exact h.started.tokOne rfl .ref 0x3F (by decide) (by decide) hp
        (fun s => .inr ⟨s, rfl⟩) (fun _ => .inr (by decide)) (fun hh => by cases hh)
  refine stepOk_one trivial key.1 ?_ ?_ (by simp [GLex.emit]) (by simp [GLex.emit]) (by simp [GLex.emit])
  · show g.current.offset ≤ g.startToken.next.start.offset
    rw [GLex.next_start]; exact Nat.le_refl _
  · exact Nat.le_refl _

theorem gscanFunc_ok (g : GLex) (h : Placed g) (hp : g.rune = rHash) : StepOk .func g (gscanFunc g) := by
  unfold gscanFunc
  dsimp only
  have key : TokOk g.input (g.startToken.next.emit .hash .string false) ∧
      g.startToken.next.current.offset = g.current.offset + 1 :=
    h.started.tokOne rfl .hash 0x23 (by decide) (by decide) hp
        (fun s => ⟨s, rfl⟩) (fun hh => by cases hh) (fun _ => by decide)
  refine stepOk_one trivial key.1 ?_ ?_ (by simp [GLex.emit]) (by simp [GLex.emit]) (fun _ => ⟨rfl, rfl⟩)
  · show g.current.offset ≤ g.startToken.next.start.offset
    rw [GLex.next_start]; exact Nat.le_refl _
  · exact Nat.le_refl _

theorem digit_at {g : GLex} (h : g.WF) (hd : 0x30 ≤ g.rune ∧ g.rune ≤ 0x39) :
    g.next.current.offset = g.current.offset + 1 := by
  obtain ⟨r, hr⟩ : ∃ r : Nat, g.rune = r := ⟨_, rfl⟩
  rw [hr] at hd
  have h1 : 48 ≤ r := hd.1
  have h2 : r ≤ 57 := hd.2
  have hn : r = (UInt8.ofNat r).toNat := by
    rw [UInt8.toNat_ofNat']
    exact (Nat.mod_eq_of_lt (by omega)).symm
  refine (next_ascii h (UInt8.ofNat r) ?_ ?_ (by rw [hr]; exact hn)).1
  · rw [UInt8.lt_iff_toNat_lt, ← hn]; show r < 128; omega
  · intro he
    rw [he] at hn
    have : r = 0 := hn
    omega

theorem gscanIndex_ok (g : GLex) (h : Placed g) : StepOk .index g (gscanIndex g) := by
  unfold gscanIndex
  dsimp only
  split
  · rename_i hd
    have hx := gdigitsLoop_nexts g.startToken.fuel g.startToken
    have hlt : g.current.offset < (gdigitsLoop g.startToken.fuel g.startToken).current.offset := by
      have hf : g.startToken.fuel = (g.startToken.fuel - 1) + 1 := by simp [GLex.fuel]
      rw [hf]
      unfold gdigitsLoop
      have hr : g.startToken.rune = g.rune := rfl
      have hn := digit_at h.wf.startToken (show 0x30 ≤ g.startToken.rune ∧ g.startToken.rune ≤ 0x39 from
        ⟨Nat.le_trans (by decide : (0x30 : Nat) ≤ 0x31) hd.1, hd.2⟩)
      rw [hr, if_neg (by intro he; rw [he] at hd; exact absurd hd.1 (by decide)), if_neg (by
        intro hh; rcases hh with hh | hh
        · exact absurd (Nat.lt_of_lt_of_le hh (by decide : (0x30 : Nat) ≤ 0x31)) (Nat.not_lt.mpr hd.1)
        · exact absurd hh (Nat.not_lt.mpr hd.2))]
      have := (gdigitsLoop_nexts (g.startToken.fuel - 1) g.startToken.next).le
      have ho : g.startToken.current.offset = g.current.offset := rfl
      omega
    generalize gdigitsLoop g.startToken.fuel g.startToken = g' at hx hlt
    have hs' : Started g' := hx.started h.started
    have hin : g'.input = g.input := hx.input
    have hso : g'.start.offset = g.current.offset := by rw [hx.start]; rfl
    have ht := hs'.tokSome .literal .number false (.inr (.inl rfl)) (by omega)
    rw [hin] at ht
    refine stepOk_one trivial ht ?_ (Nat.le_refl _) (by simp [GLex.emit]) (by simp [GLex.emit]) (by simp [GLex.emit])
    show g.current.offset ≤ g'.start.offset; omega
  · refine stepOk_none trivial (Nat.le_refl _) ?_
    intro rest hr; exact headOk_nil hr (by simp)

/-- After a quote, `Next` is past it. -/
theorem quote_next {g : GLex} (h : g.WF) (hq : g.rune = rSQuote ∨ g.rune = rDQuote ∨ g.rune = rBacktick) :
    g.current.offset < g.next.current.offset := by
  rcases hq with hq | hq | hq
  · rw [(next_ascii h 0x27 (by decide) (by decide) hq).1]; omega
  · rw [(next_ascii h 0x22 (by decide) (by decide) hq).1]; omega
  · rw [(next_ascii h 0x60 (by decide) (by decide) hq).1]; omega

theorem quoted_ok (g : GLex) (hs : Started g) (hq : g.rune = rSQuote ∨ g.rune = rDQuote ∨ g.rune = rBacktick)
    (t : TokType) (ht : t = .plain ∨ t = .literal ∨ t = .name) (k : LitKind) (bad : Bool) (n : Nat) :
    TokOk g.input ((gquotedLoop g.rune n g.next).1.emit t k bad) ∧
    ((gquotedLoop g.rune n g.next).1.emit t k bad).start = g.start.offset := by
  have hx : Nexts g (gquotedLoop g.rune n g.next).1 := .step (gquotedLoop_nexts _ _ _)
  have hx' := (gquotedLoop_nexts g.rune n g.next).le
  have hlt := quote_next hs.placed.wf hq
  generalize gquotedLoop g.rune n g.next = r at hx hx'
  have hs' := hx.started hs
  have hle := hs.placed.wf.le
  have := hs'.tokSome t k bad ht (by rw [hx.start]; omega)
  rw [hx.input] at this
  exact ⟨this, by show r.1.start.offset = _; rw [hx.start]⟩

theorem gscanQuotedPlain_ok (g : GLex) (hs : Started g)
    (hq : g.rune = rSQuote ∨ g.rune = rDQuote ∨ g.rune = rBacktick) :
    StepOk .quotedPlain g (gscanQuotedPlain g) := by
  unfold gscanQuotedPlain
  dsimp only
  obtain ⟨h1, h2⟩ := quoted_ok g hs hq .plain (.inl rfl) .string (!(gquotedLoop g.rune g.next.fuel g.next).2) g.next.fuel
  refine stepOk_one trivial h1 ?_ (Nat.le_refl _) (by simp [GLex.emit]) (by simp [GLex.emit]) (by simp [GLex.emit])
  rw [h2]; exact Nat.le_refl _

theorem gscanFuncArgQuoted_ok (g : GLex) (hs : Started g) (hq : g.rune = rSQuote) :
    StepOk .funcArgQuoted g (gscanFuncArgQuoted g) := by
  unfold gscanFuncArgQuoted
  dsimp only
  split
  · obtain ⟨h1, h2⟩ := quoted_ok g hs (.inl hq) .literal (.inr (.inl rfl)) .string false g.next.fuel
    refine stepOk_one trivial h1 ?_ (Nat.le_refl _) (by simp [GLex.emit]) (by simp [GLex.emit]) (by simp [GLex.emit])
    rw [h2]; exact Nat.le_refl _
  · obtain ⟨h1, h2⟩ := quoted_ok g hs (.inl hq) .literal (.inr (.inl rfl)) .string true g.next.fuel
    refine stepOk_one trivial h1 ?_ (Nat.le_refl _) (by simp [GLex.emit]) (by simp [GLex.emit]) (by simp [GLex.emit])
    rw [h2]; exact Nat.le_refl _

theorem advanced_lt {g : GLex} (h : g.advanced = true) : g.start.offset < g.current.offset := by
  simpa [GLex.advanced] using h

theorem gscanFuncName_ok (g : GLex) (h : Placed g) : StepOk .funcName g (gscanFuncName g) := by
  unfold gscanFuncName
  dsimp only
  have h1 := glettersLoop_nexts g.startToken.fuel g.startToken
  generalize glettersLoop g.startToken.fuel g.startToken = g1 at h1
  have h2 := gdecimalsLoop_nexts g1.startToken.fuel g1.startToken
  generalize gdecimalsLoop g1.startToken.fuel g1.startToken = g2 at h2
  have hs1 : Started g1 := h1.started h.started
  have hs2 : Started g2 := h2.started hs1.placed.started
  have hi1 : g1.input = g.input := h1.input
  have hi2 : g2.input = g.input := by rw [h2.input]; exact hi1
  have ho1 : g1.start.offset = g.current.offset := by rw [h1.start]; rfl
  have ho2 : g2.start.offset = g1.current.offset := by rw [h2.start]; rfl
  have hl1 : g.current.offset ≤ g1.current.offset := h1.le
  have hl2 : g1.current.offset ≤ g2.current.offset := h2.le
  split
  · refine stepOk_none trivial hl1 ?_
    intro rest hr n hn ht
    exact absurd (hr n hn ht) id
  · rename_i ha
    have ha1 : g1.advanced = true := by simpa using ha
    have ht1 := hs1.tokSome .name .string false (.inr (.inr rfl)) (advanced_lt ha1)
    rw [hi1] at ht1
    have hhead : ∀ ts, HeadOk .funcName g (g1.emit .name .string false :: ts) := fun ts => headOk_name ho1
    have hfrom : g.current.offset ≤ (g1.emit .name .string false).start := by
      show g.current.offset ≤ g1.start.offset; omega
    have two : ∀ (st' : Scan) (g' : GLex) (t : GToken), StepPre st' g' → TokOk g.input t →
        g1.current.offset ≤ t.start → t.end_ ≤ stepFrom st' g' → t.typ ≠ .eof → t.typ ≠ .hash →
        StepOk .funcName g (g', [g1.emit .name .string false, t], some st') := by
      intro st' g' t hpre ht hle hend heof hhash
      refine ⟨hpre, fun rest hc _ => ⟨?_, hhead _⟩⟩
      exact .cons ht1 hfrom (by simp [GLex.emit])
        (.cons ht hle heof (hc.mono hend) (fun hh => absurd hh hhash)) (fun hh => by cases hh)
    split
    · rename_i ha2
      have ht2 := hs2.tokSome .literal .number false (.inr (.inl rfl)) (advanced_lt ha2)
      rw [hi2] at ht2
      exact two .plain g2 _ trivial ht2 (by show g1.current.offset ≤ g2.start.offset; omega) (Nat.le_refl _)
        (by simp [GLex.emit]) (by simp [GLex.emit])
    · rename_i ha2
      split
      · rename_i hlp
        have heq : g2.start.offset = g2.current.offset := by
          have := hs2.placed.wf.le
          simp [GLex.advanced] at ha2
          omega
        have ht2 := (hs2.tokOne heq .lparen 0x28 (by decide) (by decide) hlp (fun s => ⟨s, rfl⟩)
          (fun hh => by cases hh) (fun hh => by cases hh)).1
        rw [hi2] at ht2
        refine two .funcArgs g2.next _ trivial ht2 ?_ (Nat.le_refl _) (by simp [GLex.emit]) (by simp [GLex.emit])
        show g1.current.offset ≤ g2.next.start.offset
        rw [GLex.next_start]; omega
      · exact stepOk_one trivial ht1 hfrom hl2 (by simp [GLex.emit]) (fun _ => hhead []) (by simp [GLex.emit])

theorem headOk_args {g : GLex} {ts : List GToken} : HeadOk .funcArgs g ts := fun _ _ _ => trivial

theorem gscanFuncArgs_ok (L : GoLib) (g : GLex) (h : Placed g) : StepOk .funcArgs g (gscanFuncArgs L g) := by
  unfold gscanFuncArgs
  dsimp only
  have h1 : Nexts g g.skipWhitespace := gskipWhitespace_nexts g.fuel g
  have hp1 : Placed g.skipWhitespace := h1.placed h
  have hi1 : g.skipWhitespace.startToken.input = g.input := h1.input
  have hl1 : g.current.offset ≤ g.skipWhitespace.startToken.current.offset := h1.le
  have hs1 : Started g.skipWhitespace.startToken := hp1.started
  have ho1 : g.skipWhitespace.startToken.start.offset = g.skipWhitespace.startToken.current.offset := rfl
  generalize g.skipWhitespace.startToken = g1 at hi1 hl1 hs1 ho1
  have h2 := gargLoop_nexts g1.fuel g1
  generalize gargLoop g1.fuel g1 = g2 at h2
  have hs2 : Started g2 := h2.started hs1
  have hi2 : g2.input = g.input := by rw [h2.input]; exact hi1
  have ho2 : g2.start.offset = g1.current.offset := by rw [h2.start]; exact ho1
  have hl2 : g1.current.offset ≤ g2.current.offset := h2.le
  have one : ∀ (st' : Scan) (t : TokType) (b : UInt8), b < 0x80 → b ≠ 0 → g1.rune = b.toNat →
      (∀ s, Begins t (b :: s)) → t = .comma ∨ t = .rparen → st' = .funcArgs ∨ st' = .plain →
      StepOk .funcArgs g (g1.next, [g1.next.emit t .string false], some st') := by
    intro st' t b hb h0 hr hB ht hst
    have ht1 := (hs1.tokOne ho1 t b hb h0 hr hB (by rcases ht with rfl | rfl <;> simp)
      (by rcases ht with rfl | rfl <;> simp)).1
    rw [hi1] at ht1
    refine stepOk_one (by rcases hst with rfl | rfl <;> trivial) ht1 ?_ ?_ ?_ ?_ ?_
    · show g.current.offset ≤ g1.next.start.offset
      rw [GLex.next_start]; omega
    · rcases hst with rfl | rfl <;> exact Nat.le_refl _
    · rcases ht with rfl | rfl <;> simp [GLex.emit]
    · rcases ht with rfl | rfl <;> simp [GLex.emit]
    · rcases ht with rfl | rfl <;> simp [GLex.emit]
  split
  · exact stepOk_none trivial hl1 (fun _ _ => headOk_args)
  · split
    · rename_i hr
      exact one .funcArgs .comma 0x2C (by decide) (by decide) hr (fun s => ⟨s, rfl⟩) (.inl rfl) (.inl rfl)
    · split
      · rename_i hr
        exact one .plain .rparen 0x29 (by decide) (by decide) hr (fun s => ⟨s, rfl⟩) (.inr rfl) (.inr rfl)
      · split
        · rename_i hr
          refine stepOk_none ⟨hs1, hr⟩ ?_ (fun _ _ => headOk_args)
          show g.current.offset ≤ g1.start.offset; omega
        · by_cases ha : g2.advanced = true
          · rw [if_pos ha]
            have some_ : ∀ (t : TokType) (k : LitKind) (bad : Bool), t = .literal ∨ t = .name →
                StepOk .funcArgs g (g2, [g2.emit t k bad], some .funcArgs) := by
              intro t k bad ht
              have ht1 := hs2.tokSome t k bad (.inr ht) (advanced_lt ha)
              rw [hi2] at ht1
              refine stepOk_one trivial ht1 ?_ (Nat.le_refl _) ?_ (fun _ => headOk_args) ?_
              · show g.current.offset ≤ g2.start.offset; omega
              · rcases ht with rfl | rfl <;> simp [GLex.emit]
              · rcases ht with rfl | rfl <;> simp [GLex.emit]
            split
            · exact some_ _ _ _ (.inl rfl)
            · split
              · exact some_ _ _ _ (.inl rfl)
              · split
                · exact some_ _ _ _ (.inl rfl)
                · exact some_ _ _ _ (.inr rfl)
          · rw [if_neg ha]
            exact stepOk_none trivial (by show g.current.offset ≤ g2.current.offset; omega) (fun _ _ => headOk_args)

theorem gscanStep_ok (L : GoLib) (st : Scan) (g : GLex) (h : Placed g) (hp : StepPre st g) :
    StepOk st g (gscanStep L st g) := by
  cases st with
  | plain => exact gscanPlain_ok g h
  | ref => exact gscanRef_ok g h hp
  | index => exact gscanIndex_ok g h
  | quotedPlain => exact gscanQuotedPlain_ok g hp.1 hp.2
  | func => exact gscanFunc_ok g h hp
  | funcName => exact gscanFuncName_ok g h
  | funcArgs => exact gscanFuncArgs_ok L g h
  | funcArgQuoted => exact gscanFuncArgQuoted_ok g hp.1 hp.2

theorem gscanRun_ok (L : GoLib) (n : Nat) (st : Scan) (g : GLex) (h : Placed g) (hp : StepPre st g)
    (toks : List GToken) (hr : gscanRun L n st g = some toks) :
    Chain g.input (stepFrom st g) toks ∧ HeadOk st g toks := by
  induction n generalizing st g toks with
  | zero => cases hr
  | succ n ih =>
    unfold gscanRun at hr
    have hok := gscanStep_ok L st g h hp
    have hm := gscanStep_moves L st g
    have hpl := hm.placed h
    have hin := hm.input
    generalize gscanStep L st g = r at hr hok hpl hin
    obtain ⟨g', ts, st'⟩ := r
    cases st' with
    | none =>
      cases hr
      exact hok
    | some st' =>
      dsimp only at hr hpl hin
      obtain ⟨hpre, hcont⟩ := hok
      cases hg : gscanRun L n st' g' with
      | none => rw [hg] at hr; cases hr
      | some ts' =>
        rw [hg] at hr
        cases hr
        have := ih st' g' hpl hpre ts' hg
        rw [hin] at this
        exact hcont ts' this.1 this.2

theorem gscanAll_ok (L : GoLib) (b : UInt8) (t : Str) (toks : List GToken) (h : gscanAll L (b :: t) = some toks) :
    Chain (b :: t) 0 toks := by
  have := (gscanRun_ok L _ .plain (GLex.init (b :: t)) (placed_init b t) trivial toks h).1
  have hi : (GLex.init (b :: t)).input = b :: t := by unfold GLex.init; rw [GLex.next_input]
  rw [hi] at this
  exact this.mono (Nat.zero_le _)

end Sqlf
