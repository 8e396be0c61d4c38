import Verif.Proofs.Malformed
import Verif.KernelRfl
/-!
# Templates with at most one function call, at the end
-/

namespace Sqlf

/-- The only `#` is that of a final `#f1`. -/
def HashTail (r : Str) : Prop := ∀ y, (0x23 :: y) <:+ r → y = lit "f1"

theorem HashTail.suffix {r r' : Str} (h : HashTail r) (hs : r' <:+ r) : HashTail r' :=
  fun y hy => h y (hy.trans hs)

theorem hashTail_of_not_mem {r : Str} (h : 0x23 ∉ r) : HashTail r := by
  rintro y ⟨p, hp⟩
  exact absurd (by rw [← hp]; simp) h

theorem hashTail_append {a : Str} (h : 0x23 ∉ a) : HashTail (a ++ lit "#f1") := by
  induction a with
  | nil =>
    rintro y ⟨p, hp⟩
    match p with
    | [] => simp [show lit "#f1" = [0x23, 0x66, 0x31] from by decide] at hp; exact hp
    | [x] => revert hp; simp [show lit "#f1" = [0x23, 0x66, 0x31] from by decide]
    | [x, x'] => revert hp; simp [show lit "#f1" = [0x23, 0x66, 0x31] from by decide]
    | x :: x' :: x'' :: p =>
      have := congrArg List.length hp
      simp [show lit "#f1" = [0x23, 0x66, 0x31] from by decide] at this
  | cons b a ih =>
    intro y hy
    rw [List.cons_append, List.suffix_cons_iff] at hy
    rcases hy with hy | hy
    · exfalso
      rw [List.cons.injEq] at hy
      exact h (by rw [← hy.1]; exact List.mem_cons_self)
    · exact ih (fun hx => h (List.mem_cons_of_mem _ hx)) y hy

/-! ## lexer -/

theorem next_suffix (l : Lex) : l.next.rest <:+ l.rest := by
  obtain ⟨tok, rest, e⟩ := l
  cases rest with
  | nil => exact List.suffix_refl _
  | cons b t => exact List.drop_suffix _ _

theorem plainLoop_suffix (n : Nat) (l : Lex) : (plainLoop n l).1.rest <:+ l.rest ∧
    ((plainLoop n l).2 = .func → (plainLoop n l).1.rune = rHash) := by
  induction n generalizing l with
  | zero => exact ⟨List.suffix_refl _, fun h => by cases h⟩
  | succ n ih =>
    unfold plainLoop
    dsimp only
    split
    · exact ⟨List.suffix_refl _, fun h => by cases h⟩
    · split
      · split
        · exact ⟨(ih _).1.trans ((next_suffix _).trans (next_suffix _)), (ih _).2⟩
        · exact ⟨List.suffix_refl _, fun h => by cases h⟩
      · split
        · rename_i h; exact ⟨List.suffix_refl _, fun _ => h⟩
        · split
          · exact ⟨List.suffix_refl _, fun h => by cases h⟩
          · exact ⟨(ih _).1.trans (next_suffix _), (ih _).2⟩

theorem digitsLoop_suffix (n : Nat) (l : Lex) : (digitsLoop n l).rest <:+ l.rest := by
  induction n generalizing l with
  | zero => exact List.suffix_refl _
  | succ n ih =>
    unfold digitsLoop
    split
    · exact List.suffix_refl _
    · split
      · exact List.suffix_refl _
      · exact (ih _).trans (next_suffix _)

theorem quotedLoop_suffix (q : Rune) (n : Nat) (l : Lex) : (quotedLoop q n l).1.rest <:+ l.rest := by
  induction n generalizing l with
  | zero => exact List.suffix_refl _
  | succ n ih =>
    unfold quotedLoop
    dsimp only
    split
    · exact List.suffix_refl _
    · split
      · split
        · exact (ih _).trans ((next_suffix _).trans (next_suffix _))
        · exact next_suffix _
      · exact (ih _).trans (next_suffix _)

/-! ## scanner -/

/-- The tokens of the final `#f1`. -/
def callToks : List Token := [⟨.hash, .string, false, lit "#"⟩, ⟨.name, .string, false, lit "f"⟩,
  ⟨.literal, .number, false, lit "1"⟩, ⟨.eof, .string, false, []⟩]

/-- Tokens of texts and markers. -/
def simpleTok (t : Token) : Prop := t.typ = .plain ∨ t.typ = .ref ∨ t.typ = .literal ∨ t.typ = .eof

/-- Texts and markers, then perhaps the call. -/
def CallLast (ts : List Token) : Prop :=
  ∃ pre post, ts = pre ++ post ∧ (∀ t ∈ pre, simpleTok t) ∧ (post = [] ∨ post = callToks)

theorem CallLast.append {tk ts : List Token} (h : CallLast ts) (hk : ∀ t ∈ tk, simpleTok t) : CallLast (tk ++ ts) := by
  obtain ⟨pre, post, rfl, h1, h2⟩ := h
  exact ⟨tk ++ pre, post, by simp, fun t ht => (List.mem_append.1 ht).elim (hk t) (h1 t), h2⟩

theorem scan_call (L : GoLib) (n : Nat) (tok : Str) (e : Bool) (ts : List Token)
    (h : scanRun L n .func ⟨tok, lit "#f1", e⟩ = some ts) : ts = callToks := by
  have key : scanRun L 5 .func ⟨tok, lit "#f1", e⟩ = some callToks := by
    cases e <;> kernel_rfl
  by_cases hn : n ≤ 5
  · have := scanRun_mono L hn h
    rw [this] at key; cases key; rfl
  · have := scanRun_mono L (by omega : 5 ≤ n) key
    rw [this] at h; cases h; rfl

theorem scan_callLast (L : GoLib) (n : Nat) (st : Scan) (l : Lex) (ts : List Token)
    (hst : (st ∈ [Scan.plain, .ref, .index, .quotedPlain] ∧ HashTail l.rest) ∨ (st = .func ∧ l.rest = lit "#f1"))
    (hr : scanRun L n st l = some ts) : CallLast ts := by
  induction n generalizing st l ts with
  | zero => simp [scanRun] at hr
  | succ n ih =>
    rcases hst with ⟨hst, ht⟩ | ⟨rfl, hl⟩
    · have cont : ∀ (l' : Lex) (tk : List Token) (st' : Scan),
          (st' ∈ [Scan.plain, .ref, .index, .quotedPlain] ∧ l'.rest <:+ l.rest) ∨ (st' = .func ∧ l'.rest = lit "#f1") →
          (∀ t ∈ tk, simpleTok t) → (scanRun L n st' l').map (tk ++ ·) = some ts → CallLast ts := by
        intro l' tk st' hst' htk h
        cases hc : scanRun L n st' l' with
        | none => rw [hc] at h; simp at h
        | some ts' =>
          rw [hc] at h
          simp only [Option.map_some, Option.some.injEq] at h
          rw [← h]
          exact (ih st' l' ts' (hst'.imp (fun h => ⟨h.1, ht.suffix h.2⟩) id) hc).append htk
      simp only [List.mem_cons, List.not_mem_nil, or_false] at hst
      rcases hst with rfl | rfl | rfl | rfl
      · obtain ⟨h1, h2⟩ := plainLoop_suffix l.startToken.fuel l.startToken
        simp only [scanRun, scanStep, scanPlain] at hr
        cases hp : plainLoop l.startToken.fuel l.startToken with
        | mk l' stop =>
          rw [hp] at h1 h2 hr
          have hpend : ∀ t ∈ (if l'.advanced = true then [l'.emit .plain .string false] else []), simpleTok t := by
            intro t ht
            split at ht
            · rw [List.mem_singleton] at ht; subst ht; exact .inl rfl
            · cases ht
          cases stop with
          | ref => exact cont _ _ .ref (.inl ⟨by simp, h1⟩) hpend hr
          | func =>
            refine cont _ _ .func (.inr ⟨rfl, ?_⟩) hpend hr
            have h3 : l'.rune = rHash := h2 rfl
            obtain ⟨tok, rest, e⟩ := l'
            have h3 : Lex.rune ⟨tok, rest, e⟩ = (0x23 : UInt8).toNat := h3
            rw [rune_eq_iff_head (by decide) (by decide)] at h3
            cases rest with
            | nil => simp at h3
            | cons b y =>
              simp only [List.head?_cons, Option.some.injEq] at h3
              subst h3
              have := ht.suffix h1 y (List.suffix_refl _)
              show 0x23 :: y = _
              rw [this]; rfl
          | quoted => exact cont _ [] .quotedPlain (.inl ⟨by simp, h1⟩) (by simp) hr
          | eof =>
            dsimp only at hr
            by_cases ha : l'.advanced = true
            · simp only [ha, if_true] at hr
              rw [if_pos ha] at hpend
              exact cont _ _ .plain (.inl ⟨by simp, h1⟩) hpend hr
            · simp only [ha] at hr
              cases hr
              refine ⟨_, [], (List.append_nil _).symm, ?_, .inl rfl⟩
              intro t ht
              rw [List.mem_singleton] at ht; subst ht
              exact .inr (.inr (.inr rfl))
      · refine cont _ _ .index (.inl ⟨by simp, next_suffix l.startToken⟩) ?_ hr
        intro t ht
        rw [List.mem_singleton] at ht; subst ht
        exact .inr (.inl rfl)
      · simp only [scanRun, scanStep, scanIndex] at hr
        by_cases hd : 0x31 ≤ l.rune ∧ l.rune ≤ 0x39
        · rw [if_pos hd] at hr
          refine cont _ _ .plain (.inl ⟨by simp, digitsLoop_suffix _ l.startToken⟩) ?_ hr
          intro t ht
          rw [List.mem_singleton] at ht; subst ht
          exact .inr (.inr (.inl rfl))
        · rw [if_neg hd] at hr
          exact cont _ [] .plain (.inl ⟨by simp, List.suffix_refl _⟩) (by simp) hr
      · have hr' : (scanRun L n .plain (quotedLoop l.rune l.next.fuel l.next).1).map
            ([(quotedLoop l.rune l.next.fuel l.next).1.emit .plain .string
              (!(quotedLoop l.rune l.next.fuel l.next).2)] ++ ·) = some ts := hr
        refine cont _ _ .plain (.inl ⟨by simp, (quotedLoop_suffix _ _ _).trans (next_suffix l)⟩) ?_ hr'
        intro t ht
        rw [List.mem_singleton] at ht; subst ht
        exact .inl rfl
    · obtain ⟨tok, rest, e⟩ := l
      cases hl
      have := scan_call L (n + 1) tok e ts hr
      subst this
      exact ⟨[], callToks, rfl, by simp, .inr rfl⟩

/-! ## parser -/

/-- The only call is `#f1`. -/
def OnlyF1 (es : List Expr) : Prop := ∀ name as, .call name as ∈ es → name = lit "f" ∧ as = [.num (.nat 1)]

theorem bindVarExpr_call {p p' : PState} {d : Expr} (h : bindVarExpr p = .ok (d, p')) :
    (∃ st i, d = .bindVar st i) ∧ (p'.toks = p.toks ∨ (p'.toks = p.next.toks ∧ p.next.cur.typ = .literal)) := by
  unfold bindVarExpr at h
  dsimp only at h
  generalize hp' : (if p.cur.lit = lit "$" ∨ p.cur.lit = lit "?" then
      ({ p with bindVarIndex := p.bindVarIndex + 1
                bindVarStyle := if p.bindVarStyle = 0 then
                  (if p.cur.lit = lit "$" then dollar else if p.cur.lit = lit "?" then question else 0)
                  else p.bindVarStyle } : PState)
    else p) = p1 at h
  have htk : p1.toks = p.toks := by rw [← hp']; split <;> rfl
  have hcur : p1.cur = p.cur := by rw [← hp']; split <;> rfl
  have hn : p1.next.toks = p.next.toks ∧ p1.next.cur = p.next.cur := by
    unfold PState.next
    rw [htk]
    cases p.toks with
    | nil => exact ⟨htk, hcur⟩
    | cons t ts => exact ⟨rfl, rfl⟩
  generalize (if p.cur.lit = lit "$" then dollar else if p.cur.lit = lit "?" then question else 0 : Style) = t at h
  split at h
  · cases h
  · split at h
    · split at h
      · cases h
      · rename_i h1
        split at h
        · cases h
        · split at h
          · cases h
          · cases h
            refine ⟨⟨_, _, rfl⟩, .inr ⟨hn.1, ?_⟩⟩
            rw [← hn.2]
            simpa using h1
    · cases h
      exact ⟨⟨_, _, rfl⟩, .inl htk⟩

theorem OnlyF1.append {es es' : List Expr} (h : OnlyF1 es) (h' : OnlyF1 es') : OnlyF1 (es ++ es') := by
  intro name as hm
  exact (List.mem_append.1 hm).elim (h name as) (h' name as)

theorem parse_callLast (L : GoLib) (n : Nat) (p : PState) (acc es : List Expr) (hp : CallLast p.toks)
    (ha : OnlyF1 acc) (h : parseLoop L n p acc = .ok es) : OnlyF1 es := by
  induction n generalizing p acc with
  | zero => cases h
  | succ n ih =>
    obtain ⟨pre, post, htoks, hpre, hpost⟩ := hp
    obtain ⟨toks, cur, bi, bs⟩ := p
    dsimp only at htoks
    subst htoks
    cases pre with
    | nil =>
      rcases hpost with rfl | rfl
      · simp only [parseLoop, List.append_nil] at h
        cases h
        exact ha
      · match n, h with
        | 0, h => simp [parseLoop, callToks, PState.next, funcExpr] at h; split at h <;> cases h
        | 1, h =>
          cases h2 : parseFloat L (lit "1") with
          | none => simp [parseLoop, callToks, PState.next, funcExpr, h2] at h
          | some x => simp [parseLoop, callToks, PState.next, funcExpr, h2] at h
        | n + 2, h =>
          have hx : parseFloat L (lit "1") = some (.nat 1) := rfl
          simp only [parseLoop, callToks, PState.next, funcExpr, hx, List.nil_append] at h
          simp at h
          rw [← h]
          refine ha.append ?_
          intro name as hm
          simp at hm
          exact hm
    | cons t pre =>
      have hrest : CallLast (pre ++ post) := ⟨pre, post, rfl, fun t ht => hpre t (List.mem_cons_of_mem _ ht), hpost⟩
      simp only [parseLoop, List.cons_append, PState.next] at h
      rcases hpre t List.mem_cons_self with ht | ht | ht | ht
      · rw [ht] at h
        refine ih _ _ hrest (ha.append ?_) h
        intro name as hm
        simp at hm
      · rw [ht] at h
        dsimp only at h
        cases hb : bindVarExpr ⟨pre ++ post, t, bi, bs⟩ with
        | error e => rw [hb] at h; cases h
        | ok r =>
          obtain ⟨d, p'⟩ := r
          rw [hb] at h
          dsimp only at h
          obtain ⟨⟨st, i, rfl⟩, h2⟩ := bindVarExpr_call hb
          refine ih p' _ ?_ (ha.append ?_) h
          · rcases h2 with h2 | ⟨h2, h3⟩
            · rw [h2]; exact hrest
            · rw [h2]
              cases pre with
              | nil =>
                rcases hpost with rfl | rfl
                · exact ⟨[], [], rfl, by simp, .inl rfl⟩
                · exact absurd h3 (by simp [PState.next, callToks])
              | cons t' pre =>
                exact ⟨pre, post, rfl, fun t ht => hpre t (List.mem_cons_of_mem _ (List.mem_cons_of_mem _ ht)), hpost⟩
          · intro name as hm
            simp at hm
      · rw [ht] at h; cases h
      · rw [ht] at h
        exact ih _ _ hrest ha h

/-- A template whose only `#` is that of a final `#f1` has no other call. -/
theorem parse_onlyF1 {L : GoLib} {s : Str} {es : List Expr} (hs : HashTail s) (h : parse L s = .ok es) : OnlyF1 es := by
  unfold parse at h
  cases hc : scanAll L s with
  | none => rw [hc] at h; cases h
  | some ts =>
    rw [hc] at h
    exact parse_callLast L _ _ _ _ (scan_callLast L _ .plain (Lex.init s) ts (.inl ⟨by simp, hs⟩) hc)
      (fun _ _ hm => by simp at hm) h

end Sqlf
