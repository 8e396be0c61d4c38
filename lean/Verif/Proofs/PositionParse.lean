import Verif.Proofs.PositionTokens
/-!
# Expressions and errors are where they say
-/

namespace Sqlf

open Spec

/-- The expressions stand in `s` one after the other, from byte `lo` on and up to byte `hi`. -/
def LocTo (s : Str) : Nat → List (Expr × Place) → Nat → Prop
  | lo, [], hi => lo ≤ hi
  | lo, (e, p) :: es, hi =>
    ∃ off, lo ≤ off ∧ off ≤ s.length ∧ headOf e <+: s.drop off ∧ p = placeAt s off ∧
      LocTo s (off + (headOf e).length) es hi

theorem LocTo.located {s : Str} {lo hi : Nat} {es : List (Expr × Place)} (h : LocTo s lo es hi) :
    Located s lo es := by
  induction es generalizing lo with
  | nil => trivial
  | cons x es ih =>
    obtain ⟨e, p⟩ := x
    obtain ⟨off, h1, h2, h3, h4, h5⟩ := h
    exact ⟨off, h1, h2, h3, h4, ih h5⟩

theorem LocTo.append {s : Str} {lo mid hi : Nat} {a b : List (Expr × Place)} (h : LocTo s lo a mid)
    (h' : LocTo s mid b hi) : LocTo s lo (a ++ b) hi := by
  induction a generalizing lo with
  | nil =>
    cases b with
    | nil => exact Nat.le_trans h h'
    | cons x b =>
      obtain ⟨e, p⟩ := x
      obtain ⟨off, h1, h2⟩ := h'
      exact ⟨off, Nat.le_trans h h1, h2⟩
  | cons x a ih =>
    obtain ⟨e, p⟩ := x
    obtain ⟨off, h1, h2, h3, h4, h5⟩ := h
    exact ⟨off, h1, h2, h3, h4, ih h5⟩

theorem TokOk.prefix {s : Str} {t : GToken} (h : TokOk s t) : t.lit <+: s.drop t.start := by
  rw [h.lit, List.drop_take]
  exact List.take_prefix _ _

theorem TokOk.length {s : Str} {t : GToken} (h : TokOk s t) : t.start + t.lit.length = t.end_ := by
  have := h.le
  have := h.len
  rw [h.lit]
  simp
  omega

theorem TokOk.ne_nil {s : Str} {t : GToken} (h : TokOk s t) (ht : t.typ ≠ .eof) : t.lit ≠ [] := by
  intro he
  have := h.length
  have := h.lt ht
  rw [he, List.length_nil] at *
  omega

/-- The parser has read the tokens up to one that begins at `lo` or later. -/
structure At (s : Str) (lo : Nat) (p : GPState) : Prop where
  ok : TokOk s p.cur
  le : lo ≤ p.cur.start
  rest : (p.cur.typ = .eof ∧ p.toks = []) ∨
    (p.cur.typ ≠ .eof ∧ Chain s p.cur.end_ p.toks ∧
      (p.cur.typ = .hash → ∀ n ∈ p.toks.head?, n.typ = .name → n.start = p.cur.end_))

theorem Chain.at {s : Str} {lo : Nat} {p : GPState} (h : Chain s lo p.toks) : At s lo p.next := by
  unfold GPState.next
  cases hp : p.toks with
  | nil => rw [hp] at h; exact absurd rfl h.ne_nil
  | cons t ts =>
    rw [hp] at h
    dsimp only
    cases h with
    | last h1 h2 h3 => exact ⟨h1, h2, .inl ⟨h3, rfl⟩⟩
    | cons h1 h2 h3 h4 h5 => exact ⟨h1, h2, .inr ⟨h3, h4, h5⟩⟩

theorem At.next {s : Str} {lo : Nat} {p : GPState} (h : At s lo p) (ht : p.cur.typ ≠ .eof) :
    At s p.cur.end_ p.next := by
  rcases h.rest with ⟨h1, _⟩ | ⟨_, h2, _⟩
  · exact absurd h1 ht
  · exact h2.at

theorem At.next_name {s : Str} {lo : Nat} {p : GPState} (h : At s lo p) (ht : p.cur.typ = .hash)
    (hn : p.next.cur.typ = .name) : p.next.cur.start = p.cur.end_ := by
  rcases h.rest with ⟨h1, _⟩ | ⟨_, h2, h3⟩
  · rw [h1] at ht; cases ht
  · cases hp : p.toks with
    | nil => rw [hp] at h2; exact absurd rfl h2.ne_nil
    | cons t ts =>
      have hc : p.next.cur = t := by unfold GPState.next; rw [hp]
      rw [hc] at hn ⊢
      exact h3 ht t (by rw [hp]; rfl) hn

/-- What the main loop needs: nothing left, or a chain of tokens. -/
def Left (s : Str) (lo : Nat) (p : GPState) : Prop := p.toks = [] ∨ Chain s lo p.toks

theorem At.left {s : Str} {lo : Nat} {p : GPState} (h : At s lo p) : Left s p.cur.end_ p := by
  rcases h.rest with ⟨_, h2⟩ | ⟨_, h2, _⟩
  · exact .inl h2
  · exact .inr h2

theorem At.end_le {s : Str} {lo : Nat} {p : GPState} (h : At s lo p) : lo ≤ p.cur.end_ :=
  Nat.le_trans h.le h.ok.le

/-- What is true of an error. -/
def ErrOk (s : Str) (e : Nat × PErr) : Prop :=
  e.1 ≤ s.length ∧ (e.2 = .outOfFuel ∨ Blames e.2 (s.drop e.1))

theorem At.error {s : Str} {lo : Nat} {p : GPState} (h : At s lo p) {e : PErr}
    (he : e = .outOfFuel ∨ Blames e (s.drop p.cur.start)) : ErrOk s (p.error e) :=
  ⟨Nat.le_trans h.ok.le h.ok.len, he⟩

theorem At.errorLit {s : Str} {lo : Nat} {p : GPState} (h : At s lo p) (ht : p.cur.typ ≠ .eof) :
    p.cur.lit ≠ [] ∧ p.cur.lit <+: s.drop p.cur.start := ⟨h.ok.ne_nil ht, h.ok.prefix⟩

/-- What is true of a part of the parser that began at `lo`. -/
def PartOk (s : Str) (lo : Nat) (es : List (Expr × Place)) (p : GPState) : Prop :=
  ∃ hi, LocTo s lo es hi ∧ Left s hi p ∧ p.cur.start ≤ s.length

theorem At.start_le {s : Str} {lo : Nat} {p : GPState} (h : At s lo p) : p.cur.start ≤ s.length :=
  Nat.le_trans h.ok.le h.ok.len

theorem gbindVarExpr_ok {s : Str} {lo : Nat} {p : GPState} (h : At s lo p) (ht : p.cur.typ = .ref) :
    match gbindVarExpr p with
    | .error e => ErrOk s e
    | .ok (d, q) => PartOk s lo [d] q := by
  have hne : p.cur.typ ≠ .eof := by rw [ht]; simp
  have hlen := h.ok.length
  have hpre := h.ok.prefix
  have hlit := h.ok.ref ht
  have hbegin := h.ok.begins
  rw [ht] at hbegin
  unfold gbindVarExpr
  dsimp only
  generalize htt : (if p.cur.lit = lit "$" then dollar else if p.cur.lit = lit "?" then question else 0 : Style) = t
  have hhead : ∀ i, headOf (.bindVar t i) = p.cur.lit := by
    intro i
    rcases hlit with hl | hl
    · rw [← htt, hl]; rfl
    · rw [← htt, hl]; rfl
  rw [if_pos hlit]
  generalize hq : ({ p with bindVarIndex := p.bindVarIndex + 1
                            bindVarStyle := if p.bindVarStyle = 0 then t else p.bindVarStyle } : GPState) = q
  have hqa : At s lo q := by subst hq; exact ⟨h.ok, h.le, h.rest⟩
  have hqc : q.cur = p.cur := by subst hq; rfl
  have hqe : q.cur.typ ≠ .eof := by rw [hqc]; exact hne
  have hn := hqa.next hqe
  have hloc : ∀ (i : Int), LocTo s lo [(.bindVar t i, p.cur.pos)] p.cur.end_ := by
    intro i
    refine ⟨p.cur.start, h.le, Nat.le_trans h.ok.le h.ok.len, by rw [hhead]; exact hpre, h.ok.pos, ?_⟩
    show p.cur.start + _ ≤ _
    rw [hhead, hlen]
    exact Nat.le_refl _
  by_cases hm : (q.cur.lit = lit "$" ∨ q.cur.lit = lit "?") ∧ q.bindVarStyle ≠ t
  · rw [if_pos hm]
    refine hqa.error (.inr ?_)
    rw [hqc]
    exact hbegin
  · rw [if_neg hm]
    by_cases htq : t ≠ question
    · rw [if_pos htq]
      by_cases h1 : q.next.cur.typ ≠ .literal
      · rw [if_pos h1]
        exact hn.error (.inr hn.ok.begins)
      · rw [if_neg h1]
        have h1' : q.next.cur.typ = .literal := by simpa using h1
        by_cases h2 : q.next.cur.kind ≠ .number
        · rw [if_pos h2]
          refine hn.error (.inr ?_)
          have := hn.ok.begins
          rw [h1'] at this
          exact this
        · rw [if_neg h2]
          cases parseUint q.next.cur.lit with
          | none => exact hn.error (.inr (hn.errorLit (by rw [h1']; simp)))
          | some v =>
            refine ⟨q.next.cur.end_, ?_, hn.left, hn.start_le⟩
            obtain ⟨off, a1, a2, a3, a4, a5⟩ := hloc (intOfUint64 v)
            refine ⟨off, a1, a2, a3, a4, Nat.le_trans a5 ?_⟩
            have := hn.end_le
            rw [hqc] at this
            exact this
    · rw [if_neg htq]
      exact ⟨q.cur.end_, by rw [hqc]; exact hloc _, hqa.left, hqa.start_le⟩

theorem gargsLoop_ok (L : GoLib) {s : Str} (n : Nat) {lo : Nat} {p : GPState} (acc : List CallArg) (h : At s lo p)
    (ht : p.cur.typ ≠ .eof) :
    match gargsLoop L n p acc with
    | .error e => ErrOk s e
    | .ok (_, q) => At s lo q := by
  induction n generalizing lo p acc with
  | zero => exact h.error (.inl rfl)
  | succ n ih =>
    unfold gargsLoop
    dsimp only
    have hn := h.next ht
    have hle := h.end_le
    generalize p.next = q at hn
    have hq : At s lo q := ⟨hn.ok, Nat.le_trans hle hn.le, hn.rest⟩
    by_cases h1 : q.cur.typ ≠ .literal
    · rw [if_pos h1]
      by_cases h2 : q.cur.typ ≠ .rparen
      · rw [if_pos h2]
        exact hn.error (.inr hn.ok.begins)
      · rw [if_neg h2]
        exact hq
    · rw [if_neg h1]
      have h1' : q.cur.typ = .literal := by simpa using h1
      have hqe : q.cur.typ ≠ .eof := by rw [h1']; simp
      by_cases h2 : q.cur.bad = true
      · rw [if_pos h2]
        exact hn.error (.inr (hn.errorLit hqe))
      · rw [if_neg h2]
        have hn2 := hq.next hqe
        have hle2 := hq.end_le
        have key : ∀ a : CallArg,
            match (if q.next.cur.typ = .comma then gargsLoop L n q.next (acc ++ [a])
              else if q.next.cur.typ ≠ .rparen then .error (q.next.error (.wantRparen q.next.cur.typ))
              else .ok (acc ++ [a], q.next) : Except (Nat × PErr) (List CallArg × GPState)) with
            | .error e => ErrOk s e
            | .ok (_, q) => At s lo q := by
          intro a
          have hr : At s lo q.next := ⟨hn2.ok, Nat.le_trans hle2 hn2.le, hn2.rest⟩
          by_cases h3 : q.next.cur.typ = .comma
          · rw [if_pos h3]
            exact ih _ hr (by rw [h3]; simp)
          · rw [if_neg h3]
            by_cases h4 : q.next.cur.typ ≠ .rparen
            · rw [if_pos h4]
              exact hn2.error (.inr hn2.ok.begins)
            · rw [if_neg h4]
              exact hr
        cases q.cur.kind <;> dsimp only
        · cases parseFloat L q.cur.lit with
          | none => exact hn.error (.inr (hn.errorLit hqe))
          | some x => exact key _
        · exact key _
        · exact key _
        · exact key _

theorem gfuncExpr_ok (L : GoLib) {s : Str} {lo : Nat} {p : GPState} (h : At s lo p) (ht : p.cur.typ = .hash) :
    match gfuncExpr L p with
    | .error e => ErrOk s e
    | .ok (ds, q) => PartOk s lo ds q := by
  have hne : p.cur.typ ≠ .eof := by rw [ht]; simp
  have hn := h.next hne
  have hlen := h.ok.length
  have hpre := h.ok.prefix
  have hadj := h.next_name ht
  unfold gfuncExpr
  dsimp only
  generalize p.next = q at hn hadj
  by_cases h1 : q.cur.typ ≠ .name
  · rw [if_pos h1]
    exact hn.error (.inr hn.ok.begins)
  · rw [if_neg h1]
    have h1' : q.cur.typ = .name := by simpa using h1
    have hqe : q.cur.typ ≠ .eof := by rw [h1']; simp
    have hn2 := hn.next hqe
    have hql := hn.ok.length
    have hqp := hn.ok.prefix
    rw [hadj h1'] at hql hqp
    have hhash := h.ok.hash ht
    have hpl : p.cur.end_ = p.cur.start + 1 := by rw [← hlen, hhash]; rfl
    have hname : lit "#" ++ q.cur.lit <+: s.drop p.cur.start := by
      obtain ⟨r, hr⟩ := hpre
      rw [hhash] at hr
      obtain ⟨r', hr'⟩ := hqp
      refine ⟨r', ?_⟩
      rw [← hr, List.append_assoc, hr', hpl, ← List.drop_drop, ← hr]
      rfl
    have hnlen : p.cur.start + (lit "#" ++ q.cur.lit).length = q.cur.end_ := by
      rw [← hql, hpl]
      simp [lit]
      omega
    have hle : p.cur.start ≤ s.length := Nat.le_trans h.ok.le h.ok.len
    generalize q.next = r at hn2
    have rle := hn2.end_le
    have hloc : ∀ e, headOf e = lit "#" ++ q.cur.lit → ∀ hi, q.cur.end_ ≤ hi →
        LocTo s lo [(e, p.cur.pos)] hi := by
      intro e he hi hhi
      refine ⟨p.cur.start, h.le, hle, by rw [he]; exact hname, h.ok.pos, ?_⟩
      show _ + _ ≤ _
      rw [he, hnlen]
      exact hhi
    have other : PartOk s lo [(.func q.cur.lit, p.cur.pos), (.plain r.cur.lit, r.cur.pos)] r := by
      refine ⟨r.cur.end_, ?_, hn2.left, hn2.start_le⟩
      refine LocTo.append (a := [(.func q.cur.lit, p.cur.pos)]) (hloc _ rfl _ (Nat.le_refl _)) ?_
      refine ⟨r.cur.start, hn2.le, Nat.le_trans hn2.ok.le hn2.ok.len, hn2.ok.prefix, hn2.ok.pos, ?_⟩
      show r.cur.start + r.cur.lit.length ≤ _
      rw [hn2.ok.length]
      exact Nat.le_refl _
    cases hrt : r.cur.typ <;> dsimp only <;> try exact other
    · by_cases h2 : r.cur.kind ≠ .number
      · rw [if_pos h2]
        exact hn2.error (.inr (hn2.errorLit (by rw [hrt]; simp)))
      · rw [if_neg h2]
        cases parseFloat L r.cur.lit with
        | none => exact hn2.error (.inr (hn2.errorLit (by rw [hrt]; simp)))
        | some x => exact ⟨r.cur.end_, hloc _ rfl _ rle, hn2.left, hn2.start_le⟩
    · have ha := gargsLoop_ok L (r.toks.length + 2) [] hn2 (by rw [hrt]; simp)
      cases hg : gargsLoop L (r.toks.length + 2) r [] with
      | error e => rw [hg] at ha; exact ha
      | ok x =>
        obtain ⟨args, r'⟩ := x
        rw [hg] at ha
        exact ⟨r'.cur.end_, hloc _ rfl _ ha.end_le, ha.left, ha.start_le⟩

/-- What is true of the result of the parser. -/
def ResOk (s : Str) : Except (Nat × PErr) (List (Expr × Place)) → Prop
  | .error e => ErrOk s e
  | .ok es => Located s 0 es

theorem gparseLoop_ok (L : GoLib) {s : Str} (n : Nat) {lo : Nat} {p : GPState} (acc : List (Expr × Place))
    (h : Left s lo p) (hc : p.cur.start ≤ s.length) (ha : LocTo s 0 acc lo) : ResOk s (gparseLoop L n p acc) := by
  induction n generalizing lo p acc with
  | zero => exact ⟨hc, .inl rfl⟩
  | succ n ih =>
    unfold gparseLoop
    rcases h with h | h
    · rw [h]
      exact ha.located
    · cases hp : p.toks with
      | nil => rw [hp] at h; exact absurd rfl h.ne_nil
      | cons t ts =>
        dsimp only
        have hat := h.at
        generalize p.next = q at hat
        cases ht : q.cur.typ <;> dsimp only <;> try exact hat.error (.inr (by have := hat.ok.begins; rwa [ht] at this))
        · refine ih acc hat.left hat.start_le ?_
          have := ha.append (b := []) (hi := q.cur.end_) hat.end_le
          simpa using this
        · have hb := gbindVarExpr_ok hat ht
          cases hg : gbindVarExpr q with
          | error e => rw [hg] at hb; exact hb
          | ok x =>
            obtain ⟨d, q'⟩ := x
            rw [hg] at hb
            obtain ⟨hi, h1, h2, h3⟩ := hb
            exact ih _ h2 h3 (ha.append h1)
        · refine ih _ hat.left hat.start_le (ha.append ?_)
          refine ⟨q.cur.start, hat.le, hat.start_le, hat.ok.prefix, hat.ok.pos, ?_⟩
          show q.cur.start + q.cur.lit.length ≤ _
          rw [hat.ok.length]
          exact Nat.le_refl _
        · have hb := gfuncExpr_ok L hat ht
          cases hg : gfuncExpr L q with
          | error e => rw [hg] at hb; exact hb
          | ok x =>
            obtain ⟨ds, q'⟩ := x
            rw [hg] at hb
            obtain ⟨hi, h1, h2, h3⟩ := hb
            exact ih _ h2 h3 (ha.append h1)

theorem gparse_empty (L : GoLib) : gparse L [] = .ok [] := rfl

theorem gparse_ok (L : GoLib) (s : Str) : ResOk s (gparse L s) := by
  cases s with
  | nil => rw [gparse_empty]; trivial
  | cons b t =>
    unfold gparse
    cases h : gscanAll L (b :: t) with
    | none => exact ⟨Nat.zero_le _, .inl rfl⟩
    | some toks =>
      exact gparseLoop_ok L _ [] (.inr (gscanAll_ok L b t toks h)) (Nat.zero_le _) (Nat.le_refl _)

end Sqlf
