import Verif.Spec.Interpolate
import Verif.Proofs.Digits
/-!
# How values are written
-/

namespace Sqlf

open Spec

theorem readBody_escape (s rest : Str) (h : rest.head? ≠ some 0x27) :
    readBody (escapeQuotes s ++ (0x27 :: rest)) = some (s, rest) := by
  induction s with
  | nil =>
    cases rest with
    | nil => rfl
    | cons b t =>
      have : b ≠ 0x27 := by simpa using h
      simp [escapeQuotes, readBody, this]
  | cons b s ih =>
    by_cases hb : b = 0x27
    · subst hb
      simp [escapeQuotes, readBody, ih]
    · cases hs : escapeQuotes s ++ 0x27 :: rest with
      | nil => simp at hs
      | cons c t =>
        rw [hs] at ih
        simp [escapeQuotes, hb, readBody, hs, ih]

theorem readBody_inv {s t r : Str} (h : readBody s = some (t, r)) : s = escapeQuotes t ++ 0x27 :: r := by
  fun_induction readBody s generalizing t r with
  | case1 => simp at h
  | case2 => simp at h; obtain ⟨rfl, rfl⟩ := h; simp [escapeQuotes]
  | case3 => simp at h
  | case4 t' ih =>
    simp only [Option.map_eq_some_iff] at h
    obtain ⟨⟨x, u⟩, hr, he⟩ := h
    simp at he
    rw [← he.1, ← he.2, ih hr]; simp [escapeQuotes]
  | case5 => simp at h; obtain ⟨rfl, rfl⟩ := h; simp [escapeQuotes]
  | case6 b c t' hb ih =>
    simp only [Option.map_eq_some_iff] at h
    obtain ⟨⟨x, u⟩, hr, he⟩ := h
    simp at he
    rw [← he.1, ← he.2, ih hr]; simp [escapeQuotes, hb]

theorem readLiteral_iff (s t : Str) : readLiteral s = some (t, []) ↔ s = quoteString t := by
  have hq : lit "'" = [0x27] := by decide
  constructor
  · intro h
    cases s with
    | nil => simp [readLiteral] at h
    | cons b u =>
      simp only [readLiteral] at h
      split at h
      next hb => rw [readBody_inv h, hb]; simp [quoteString, hq]
      next => simp at h
  · rintro rfl
    simp [quoteString, hq, readLiteral, readBody_escape t [] (by simp)]

theorem digitsVal_snoc (s : Str) (t : UInt8) : digitsVal (s ++ [t]) = digitsVal s * 10 + (t.toNat - 0x30) := by
  simp [digitsVal, List.foldl_append]

theorem snoc_induction {α : Type} {P : List α → Prop} (h0 : P []) (h1 : ∀ l a, P l → P (l ++ [a])) (l : List α) :
    P l := by
  rw [← l.reverse_reverse]
  induction l.reverse with
  | nil => exact h0
  | cons a l ih => rw [List.reverse_cons]; exact h1 _ _ ih

theorem isDigitB_iff {b : UInt8} : isDigitB b = true ↔ 0x30 ≤ b.toNat ∧ b.toNat ≤ 0x39 := by
  simp [isDigitB, UInt8.le_iff_toNat_le]

theorem digitsVal_pos {s : Str} (h1 : s ≠ []) (h2 : ∀ b ∈ s, isDigitB b = true)
    (h3 : s.head? ≠ some 0x30) : 0 < digitsVal s := by
  induction s using snoc_induction with
  | h0 => exact absurd rfl h1
  | h1 s b ih =>
    rw [digitsVal_snoc]
    cases s with
    | nil =>
      have := isDigitB_iff.mp (h2 b (by simp))
      have h4 : b ≠ 0x30 := by simpa using h3
      have : b.toNat ≠ 0x30 := fun h => h4 (UInt8.toNat_inj.mp (by simpa using h))
      simp [digitsVal]; omega
    | cons c s =>
      have := ih (by simp) (fun b hb => h2 b (by simp at hb ⊢; rcases hb with h | h <;> simp [h])) (by simpa using h3)
      omega

theorem isDecimal_unique {s : Str} {n : Nat} (h : IsDecimal s n) : s = natDigits n := by
  obtain ⟨h1, h2, h3, h4⟩ := h
  induction s using snoc_induction generalizing n with
  | h0 => exact absurd rfl h1
  | h1 s b ih =>
    have hb := isDigitB_iff.mp (h2 b (by simp))
    rw [digitsVal_snoc] at h4
    rw [natDigits_eq]
    cases s with
    | nil =>
      simp [digitsVal] at h4
      rw [if_pos (by omega)]
      have : b = (48 + n).toUInt8 := by
        apply UInt8.toNat_inj.mp
        simp; omega
      simp [this]
    | cons c s =>
      have h5 : (c :: s).head? ≠ some 0x30 := fun h => by
        have := h3 (by simpa using h)
        simp at this
      have h6 : ∀ b ∈ c :: s, isDigitB b = true :=
        fun b hb => h2 b (by simp at hb ⊢; rcases hb with h | h <;> simp [h])
      have hp := digitsVal_pos (by simp) h6 h5
      have := ih (by simp) h6 (fun h => absurd h h5) rfl
      rw [if_neg (by omega)]
      have h7 : n / 10 = digitsVal (c :: s) := by omega
      have h8 : n % 10 = b.toNat - 0x30 := by omega
      rw [h7, h8, ← this]
      congr 2
      apply UInt8.toNat_inj.mp
      simp; omega

theorem isDecimal_natDigits (n : Nat) : IsDecimal (natDigits n) n := by
  refine ⟨natDigits_ne_nil n, ?_, ?_, digitsVal_natDigits n⟩
  · simpa using natDigits_all n
  · intro h
    by_cases hn : n = 0
    · subst hn; decide
    · obtain ⟨b, t, h1, h2, h3⟩ := natDigits_head (n := n) (by omega)
      rw [h1] at h
      simp at h
      subst h
      simp at h2

theorem isDecimal_natDigits_iff (s : Str) (n : Nat) : IsDecimal s n ↔ s = natDigits n :=
  ⟨isDecimal_unique, fun h => h ▸ isDecimal_natDigits n⟩

/-- `encodeValue` writes values as specified. -/
theorem encodes_iff (L : GoLib) (layout : Str) (v : Val) (s : Str) :
    encodeValue L layout v = .ok s ↔ Encodes L layout v s := by
  fun_induction encodeValue L layout v with
  | case1 => simp [Encodes, eq_comm]
  | case2 => simp [Encodes]
  | case3 _ _ _ _ ih => simpa [Encodes] using ih
  | case4 => simp [Encodes, eq_comm]; exact Iff.rfl
  | case5 => simp [Encodes, eq_comm]
  | case6 => simp only [Encodes, readLiteral_iff, Out.ok.injEq]; exact eq_comm
  | case7 => simp [Encodes, eq_comm]
  | case8 => simp [Encodes, eq_comm]
  | case9 ty i => 
    simp only [Encodes, isDecimal_natDigits_iff, Out.ok.injEq]
    cases i with
    | ofNat n => simp [itoa, eq_comm]; omega
    | negSucc n =>
      have h1 : ¬ (0 ≤ Int.negSucc n) := by omega
      have h2 : Int.negSucc n < 0 := by omega
      have h3 : (-Int.negSucc n).toNat = n + 1 := by omega
      simp only [h1, h2, h3, itoa, false_and, true_and, false_or, exists_eq_right]
      rw [eq_comm]; rfl
  | case10 => simp [Encodes, isDecimal_natDigits_iff, eq_comm]
  | case11 => simp [Encodes, eq_comm]
  | case12 => simp only [Encodes, readLiteral_iff, Out.ok.injEq]; exact eq_comm
  | case13 => simp [Encodes]
  | case14 v h1 h2 h3 h4 h5 h6 h7 h8 h9 h10 h11 h12 h13 =>
    cases v with
    | stringer i h t es => exact absurd rfl (h6 i h t es)
    | valuer i h r es =>
      cases r with
      | none => exact absurd rfl (h2 i h es)
      | some v => exact absurd rfl (h3 i h v es)
    | _ => simp_all [Encodes]

theorem encodeValue_panic_iff (L : GoLib) (layout : Str) (v : Val) :
    (∃ p, encodeValue L layout v = .panic p) ↔ WritingPanics v := by
  fun_induction encodeValue L layout v with
  | case3 _ _ _ _ ih => simpa [WritingPanics] using ih
  | case14 v h1 h2 h3 h4 h5 h6 h7 h8 h9 h10 h11 h12 h13 =>
    cases v with
    | nilRecv t => exact absurd rfl (h13 t)
    | valuer i h r es =>
      cases r with
      | none => simp [WritingPanics]
      | some v => exact absurd rfl (h3 i h v es)
    | _ => simp [WritingPanics]
  | _ => simp [WritingPanics]

theorem encodeValue_panic {L : GoLib} {layout : Str} {v : Val} {p : Panic} (h : encodeValue L layout v = .panic p) :
    p = .nilDereference := by
  fun_induction encodeValue L layout v with
  | case3 _ _ _ _ ih => exact ih h
  | _ => simp_all

theorem encodeValue_ne_oof (L : GoLib) (layout : Str) (v : Val) : encodeValue L layout v ≠ .oof := by
  fun_induction encodeValue L layout v with
  | case3 _ _ _ _ ih => exact ih
  | _ => simp

theorem encodes_not_panics {L : GoLib} {layout : Str} {v : Val} {x : Str} (h : Encodes L layout v x) : ¬ WritingPanics v := by
  rw [← encodes_iff] at h
  rw [← encodeValue_panic_iff L layout, h]
  simp

theorem interpolateExprs_ne_oof (L : GoLib) (layout : Str) (args : List Val)
    (es : List Expr) : interpolateExprs L layout args es ≠ .oof := by
  induction es with
  | nil => simp [interpolateExprs]
  | cons e es ih =>
    cases e with
    | plain t =>
      simp only [interpolateExprs]
      cases h : interpolateExprs L layout args es <;> simp_all
    | bindVar st i =>
      simp only [interpolateExprs]
      split
      · simp
      · split
        · simp
        · rename_i v _
          cases he : encodeValue L layout v with
          | ok x =>
            dsimp only
            cases h : interpolateExprs L layout args es <;> simp_all
          | oof => exact absurd he (encodeValue_ne_oof _ _ _)
          | _ => simp
    | call n a => simp [interpolateExprs]
    | func n => simp [interpolateExprs]

/-- Filling in panics at a bind variable without argument, or with one that cannot be written without a panic. -/
theorem interpolateExprs_panic {L : GoLib} {layout : Str} {args : List Val}
    {es : List Expr} {p : Panic} (h : interpolateExprs L layout args es = .panic p) :
    ∃ st i, Expr.bindVar st i ∈ es ∧ ((i < 1 ∨ args.length < i) ∧ p = .indexOutOfRange ∨
      (∃ v, args[(i - 1).toNat]? = some v ∧ WritingPanics v) ∧ p = .nilDereference) := by
  induction es with
  | nil => simp [interpolateExprs] at h
  | cons e es ih =>
    cases e with
    | plain t =>
      simp only [interpolateExprs] at h
      split at h
      · simp at h
      · obtain ⟨st, i, h1, h2⟩ := ih h; exact ⟨st, i, by simp [h1], h2⟩
    | bindVar st i =>
      simp only [interpolateExprs] at h
      split at h
      · rename_i hi; cases h; exact ⟨st, i, by simp, .inl ⟨hi, rfl⟩⟩
      · rename_i hi
        cases hn : args[(i - 1).toNat]? with
        | none =>
          rw [List.getElem?_eq_none_iff] at hn
          omega
        | some v =>
          rw [hn] at h
          dsimp only at h
          cases he : encodeValue L layout v with
          | ok x =>
            rw [he] at h
            dsimp only at h
            split at h
            · simp at h
            · obtain ⟨st, i, h1, h2⟩ := ih h; exact ⟨st, i, by simp [h1], h2⟩
          | panic p' =>
            rw [he] at h
            cases h
            exact ⟨st, i, by simp, .inr ⟨⟨v, hn, (encodeValue_panic_iff L layout v).mp ⟨p, he⟩⟩, encodeValue_panic he⟩⟩
          | oof => exact absurd he (encodeValue_ne_oof _ _ _)
          | err e => rw [he] at h; simp at h
    | call n a => simp [interpolateExprs] at h
    | func n => simp [interpolateExprs] at h

theorem filled_iff (L : GoLib) (layout : Str) (args : List Val) (es : List Expr) (s : Str) :
    interpolateExprs L layout args es = .ok s ↔ Filled L layout args es s := by
  induction es generalizing s with
  | nil => simp [interpolateExprs, Filled, eq_comm]
  | cons e es ih =>
    cases e with
    | plain t =>
      simp only [interpolateExprs, Filled]
      cases h : interpolateExprs L layout args es with
      | ok r =>
        simp only [Out.ok.injEq]
        constructor
        · rintro rfl; exact ⟨r, rfl, (ih r).mp h⟩
        · rintro ⟨r', rfl, hr⟩; rw [← ih, h] at hr; simp at hr; rw [hr]
      | _ =>
        simp only [reduceCtorEq, false_iff, not_exists, not_and]
        intro r _ hr; rw [← ih, h] at hr; simp at hr
    | bindVar st i =>
      simp only [interpolateExprs, Filled]
      split
      next hi =>
        simp only [reduceCtorEq, false_iff, not_and, not_exists]
        intro h1 v x r hv
        rcases hi with hi | hi
        · omega
        · have := (List.getElem?_eq_some_iff.mp hv).1
          omega
      next hi =>
        cases hv : args[(i - 1).toNat]? with
        | none => simp
        | some v =>
          dsimp only
          cases he : encodeValue L layout v with
          | ok x =>
            dsimp only
            cases h : interpolateExprs L layout args es with
            | ok r =>
              simp only [Out.ok.injEq]
              constructor
              · rintro rfl
                exact ⟨by omega, v, x, r, rfl, (encodes_iff ..).mp he, rfl, (ih r).mp h⟩
              · rintro ⟨_, v', x', r', hv', hx, rfl, hr⟩
                simp at hv'; subst hv'
                rw [← encodes_iff, he] at hx
                rw [← ih, h] at hr; simp at hr hx; rw [hr, hx]
            | _ =>
              simp only [reduceCtorEq, false_iff, not_exists, not_and]
              intro _ v' x' r hv' hx hs hr; rw [← ih, h] at hr; simp at hr
          | _ =>
            simp only [reduceCtorEq, false_iff, not_and, not_exists]
            intro h1 v' x r hv' hx
            simp at hv'; subst hv'
            rw [← encodes_iff, he] at hx; simp at hx
    | call _ _ => simp [interpolateExprs, Filled]
    | func _ => simp [interpolateExprs, Filled]

theorem filled_glue (L : GoLib) (layout : Str) (args : List Val) (es : List Expr) (s : Str) :
    Filled L layout args (glue es) s ↔ Filled L layout args es s := by
  induction es generalizing s with
  | nil => rfl
  | cons e es ih =>
    cases e with
    | plain t =>
      simp only [glue]
      split
      next ht => subst ht; simp [Filled, ih]
      next ht =>
        split
        next u r hg =>
          simp only [Filled]
          constructor
          · rintro ⟨r', rfl, hr⟩
            exact ⟨u ++ r', by simp, (ih _).mp (by rw [hg]; exact ⟨r', rfl, hr⟩)⟩
          · rintro ⟨r', rfl, hr⟩
            rw [← ih, hg] at hr
            obtain ⟨r'', rfl, hr'⟩ := hr
            exact ⟨r'', by simp, hr'⟩
        next hg => simp only [Filled, ih]
    | bindVar st i => simp only [glue, Filled, ih]
    | call _ _ => simp [glue, Filled]
    | func _ => simp [glue, Filled]

/-! ## Where filling in stops -/

section
variable {L : GoLib} {layout : Str} {args : List Val} {P : Expr → Prop}

theorem getsTo_nil : ¬ GetsTo L layout args P [] := by
  rintro ⟨before, e, after, s, h, -⟩
  simp at h

theorem getsTo_cons {e : Expr} {es : List Expr} :
    GetsTo L layout args P (e :: es) ↔ P e ∨ ((∃ x, Filled L layout args [e] x) ∧ GetsTo L layout args P es) := by
  have hf : ∀ {before : List Expr} {s : Str}, Filled L layout args (e :: before) s →
      ∃ x r, Filled L layout args [e] x ∧ Filled L layout args before r := by
    intro before s h
    cases e with
    | plain t => obtain ⟨r, -, hr⟩ := h; exact ⟨_, r, ⟨[], rfl, rfl⟩, hr⟩
    | bindVar st i =>
      obtain ⟨hi, v, x, r, hv, hx, -, hr⟩ := h
      exact ⟨_, r, ⟨hi, v, x, [], hv, hx, rfl, rfl⟩, hr⟩
    | call _ _ => simp [Filled] at h
    | func _ => simp [Filled] at h
  constructor
  · rintro ⟨before, e', after, s, h, hb, hp⟩
    cases before with
    | nil =>
      simp only [List.nil_append, List.cons.injEq] at h
      rw [h.1]; exact .inl hp
    | cons b before =>
      simp only [List.cons_append, List.cons.injEq] at h
      obtain ⟨rfl, rfl⟩ := h
      obtain ⟨x, r, h1, h2⟩ := hf hb
      exact .inr ⟨⟨x, h1⟩, before, e', after, r, rfl, h2, hp⟩
  · rintro (hp | ⟨⟨x, hx⟩, before, e', after, s, rfl, hb, hp⟩)
    · exact ⟨[], e, es, [], rfl, rfl, hp⟩
    · refine ⟨e :: before, e', after, x ++ s, rfl, ?_, hp⟩
      cases e with
      | plain t => obtain ⟨r, rfl, rfl⟩ := hx; exact ⟨s, by simp, hb⟩
      | bindVar st i =>
        obtain ⟨hi, v, y, r, hv, hy, rfl, rfl⟩ := hx
        exact ⟨hi, v, y, s, hv, hy, by simp, hb⟩
      | call _ _ => simp [Filled] at hx
      | func _ => simp [Filled] at hx

theorem getsTo_plain (hP : ∀ t, ¬ P (.plain t)) {t : Str} {es : List Expr} :
    GetsTo L layout args P (.plain t :: es) ↔ GetsTo L layout args P es := by
  rw [getsTo_cons]
  simp [hP, Filled]

theorem getsTo_glue (hP : ∀ t, ¬ P (.plain t)) (es : List Expr) :
    GetsTo L layout args P (glue es) ↔ GetsTo L layout args P es := by
  induction es with
  | nil => rfl
  | cons e es ih =>
    cases e with
    | plain t =>
      rw [getsTo_plain hP, ← ih]
      simp only [glue]
      split
      next => rfl
      next =>
        split
        next u r hg => rw [hg, getsTo_plain hP, getsTo_plain hP]
        next => rw [getsTo_plain hP]
    | bindVar st i => rw [glue, getsTo_cons, getsTo_cons, ih]; simp
    | call _ _ => rw [glue, getsTo_cons, getsTo_cons, ih]; simp
    | func _ => rw [glue, getsTo_cons, getsTo_cons, ih]; simp

theorem interpolateExprs_panic_iff (es : List Expr) :
    (∃ p, interpolateExprs L layout args es = .panic p) ↔ GetsTo L layout args (FillingPanics args) es := by
  induction es with
  | nil => simp [interpolateExprs, getsTo_nil]
  | cons e es ih =>
    rw [getsTo_cons, ← ih]
    cases e with
    | plain t =>
      simp only [interpolateExprs, FillingPanics, NoArgument, reduceCtorEq, false_and, exists_false, false_or, Filled]
      cases interpolateExprs L layout args es <;> simp
    | bindVar st i =>
      simp only [interpolateExprs]
      split
      next hi =>
        simp only [Out.panic.injEq, exists_eq', true_iff]
        exact .inl (.inl ⟨st, i, rfl, by omega⟩)
      next hi =>
        have hlt : (i - 1).toNat < args.length := by omega
        have hn : FillingPanics args (.bindVar st i) ↔ WritingPanics args[(i - 1).toNat] := by
          constructor
          · rintro (⟨st', i', he, h⟩ | ⟨st', i', v, he, -, hv, hw⟩)
            · cases he; exact absurd (by omega) h
            · cases he
              rw [List.getElem?_eq_getElem hlt] at hv
              cases hv
              exact hw
          · intro hw
            exact .inr ⟨st, i, _, rfl, by omega, List.getElem?_eq_getElem hlt, hw⟩
        rw [hn, ← encodeValue_panic_iff L layout]
        rw [List.getElem?_eq_getElem hlt]
        dsimp only
        have hF : ∀ o, encodeValue L layout args[(i - 1).toNat] = o → (∀ x, o ≠ .ok x) →
            ¬ ∃ x, Filled L layout args [.bindVar st i] x := by
          rintro o he ho ⟨x, -, v, y, r, hv, hy, -⟩
          rw [List.getElem?_eq_getElem hlt] at hv
          cases hv
          rw [← encodes_iff, he] at hy
          exact ho _ hy
        cases he : encodeValue L layout args[(i - 1).toNat] with
        | ok x =>
          have hx : ∃ x, Filled L layout args [.bindVar st i] x :=
            ⟨x ++ [], by omega, _, x, [], List.getElem?_eq_getElem hlt, (encodes_iff ..).mp he, rfl, rfl⟩
          simp only [hx, true_and]
          cases interpolateExprs L layout args es <;> simp
        | err e => have := hF _ he (by simp); simp [this]
        | panic p => simp
        | oof => exact absurd he (encodeValue_ne_oof _ _ _)
    | call _ _ => simp [interpolateExprs, Filled, FillingPanics, NoArgument]
    | func _ => simp [interpolateExprs, Filled, FillingPanics, NoArgument]

theorem interpolateExprs_err_iff (es : List Expr) :
    (∃ e, interpolateExprs L layout args es = .err e) ↔ GetsTo L layout args (CannotFill L layout args) es := by
  induction es with
  | nil => simp [interpolateExprs, getsTo_nil]
  | cons e es ih =>
    rw [getsTo_cons, ← ih]
    cases e with
    | plain t =>
      simp only [interpolateExprs, CannotFill, false_or, Filled]
      cases interpolateExprs L layout args es <;> simp
    | bindVar st i =>
      simp only [interpolateExprs]
      split
      next hi =>
        simp only [reduceCtorEq, exists_false, false_iff, CannotFill, Filled]
        rintro (⟨h1, v, h2, -⟩ | ⟨⟨x, h1, v, y, r, h2, -⟩, -⟩)
        all_goals
          have := (List.getElem?_eq_some_iff.1 h2).1
          omega
      next hi =>
        have hlt : (i - 1).toNat < args.length := by omega
        rw [List.getElem?_eq_getElem hlt]
        dsimp only
        cases he : encodeValue L layout args[(i - 1).toNat] with
        | err e =>
          simp only [Out.err.injEq, exists_eq', true_iff]
          refine .inl ⟨by omega, _, List.getElem?_eq_getElem hlt, ?_, fun x hx => ?_⟩
          · rw [← encodeValue_panic_iff L layout, he]; simp
          · rw [← encodes_iff, he] at hx
            cases hx
        | panic p =>
          simp only [reduceCtorEq, exists_false, false_iff]
          rintro (⟨-, v, hv, h, -⟩ | ⟨⟨x, -, v, y, r, hv, hy, -⟩, -⟩)
          · rw [List.getElem?_eq_getElem hlt] at hv
            cases hv
            exact h ((encodeValue_panic_iff L layout _).mp ⟨p, he⟩)
          · rw [List.getElem?_eq_getElem hlt] at hv
            cases hv
            rw [← encodes_iff, he] at hy
            cases hy
        | oof => exact absurd he (encodeValue_ne_oof _ _ _)
        | ok x =>
          have hx : ∃ x, Filled L layout args [.bindVar st i] x :=
            ⟨x ++ [], by omega, _, x, [], List.getElem?_eq_getElem hlt, (encodes_iff ..).mp he, rfl, rfl⟩
          have hn : ¬ CannotFill L layout args (.bindVar st i) := by
            rintro ⟨-, v, hv, h⟩
            rw [List.getElem?_eq_getElem hlt] at hv
            cases hv
            exact h.2 x ((encodes_iff ..).mp he)
          simp only [hx, hn, true_and, false_or]
          cases interpolateExprs L layout args es <;> simp
    | call _ _ => simp [interpolateExprs, CannotFill]
    | func _ => simp [interpolateExprs, CannotFill]

end

end Sqlf
