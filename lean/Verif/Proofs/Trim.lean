import Verif.Proofs.Loops
/-!
# Trimming white space around ASCII text
-/

namespace Sqlf

/-- What follows an ASCII byte does not change the decoding before it. -/
theorem decodeRune_append {a r : Str} (ha : a ≠ []) (hr : AsciiHead r) :
    decodeRune (a ++ r) = decodeRune a := by
  cases r with
  | nil => simp
  | cons c r =>
    have hc : c < 0x80 := hr c rfl
    have h1 : isCont c = false := by
      simp only [isCont, Bool.and_eq_false_imp, decide_eq_true_eq]
      intro h; exact absurd hc (UInt8.not_lt.mpr h)
    have h2 : ∀ p : Prop, [Decidable p] → ((if p then 0xA0 else 0x80 : UInt8) ≤ c) = False := by
      intro p _
      rw [eq_iff_iff, iff_false]
      intro h
      have : (0x80 : UInt8) ≤ c := by
        refine UInt8.le_trans ?_ h
        split <;> decide
      exact absurd hc (UInt8.not_lt.mpr this)
    have h3 : ∀ p : Prop, [Decidable p] → ((if p then 0x90 else 0x80 : UInt8) ≤ c) = False := by
      intro p _
      rw [eq_iff_iff, iff_false]
      intro h
      have : (0x80 : UInt8) ≤ c := by
        refine UInt8.le_trans ?_ h
        split <;> decide
      exact absurd hc (UInt8.not_lt.mpr this)
    match a, ha with
    | [b], _ =>
      simp only [List.cons_append, List.nil_append, decodeRune, h1]
      cases r with
      | nil => simp
      | cons d r =>
        cases r with
        | nil => simp [h2]
        | cons e r => simp [h2, h3]
    | [b, b2], _ =>
      simp only [List.cons_append, List.nil_append, decodeRune, h1]
      cases r with
      | nil => simp
      | cons d r => simp [h1]
    | [b, b2, b3], _ =>
      simp only [List.cons_append, List.nil_append, decodeRune, h1]
      simp
    | b :: b2 :: b3 :: b4 :: t, _ =>
      simp only [List.cons_append, decodeRune]

theorem decodeRune_width_le {a : Str} : (decodeRune a).2 ≤ a.length := by
  cases a with
  | nil => simp [decodeRune]
  | cons b t => exact (decodeRune_width_pos b t).2

/-- ASCII, not white space: the bytes that stop trimming. -/
def Stop (b : UInt8) : Prop := b < 0x80 ∧ isSpace b.toNat = false

theorem trimLeftAux_append (n : Nat) (a r : Str) (hn : (a ++ r).length ≤ n)
    (hr : ∀ b, r.head? = some b → Stop b) : trimLeftAux n (a ++ r) = trimLeft a ++ r := by
  unfold trimLeft
  suffices h : ∀ m, a.length ≤ m → trimLeftAux n (a ++ r) = trimLeftAux m a ++ r from
    h _ (Nat.le_refl _)
  have hra : AsciiHead r := fun b hb => (hr b hb).1
  induction n generalizing a with
  | zero =>
    intro m hm
    have : a = [] ∧ r = [] := by
      have : (a ++ r).length = 0 := by omega
      simpa using this
    obtain ⟨rfl, rfl⟩ := this
    cases m <;> rfl
  | succ n ih =>
    intro m hm
    cases a with
    | nil =>
      have h0 : trimLeftAux m ([] : Str) = [] := by cases m <;> rfl
      rw [h0]
      simp only [List.nil_append]
      cases r with
      | nil => rfl
      | cons b r =>
        have hb := hr b rfl
        simp only [trimLeftAux, decodeRune_ascii r hb.1, hb.2]
        rfl
    | cons b s =>
      obtain ⟨m, rfl⟩ : ∃ k, m = k + 1 := ⟨m - 1, by simp at hm; omega⟩
      have hd := decodeRune_append (a := b :: s) (by simp) hra
      have hw := decodeRune_width_pos b s
      simp only [List.cons_append, trimLeftAux] at hd ⊢
      rw [hd]
      by_cases hs : isSpace (decodeRune (b :: s)).1 = true
      · rw [if_pos hs, if_pos hs]
        rw [← List.cons_append, List.drop_append_of_le_length hw.2]
        apply ih
        · simp only [List.length_append, List.length_drop] at hn ⊢
          simp only [List.length_cons] at *
          omega
        · simp only [List.length_drop, List.length_cons] at *
          omega
      · rw [if_neg hs, if_neg hs]
        simp

theorem trimLeft_append (a r : Str) (hr : ∀ b, r.head? = some b → Stop b) :
    trimLeft (a ++ r) = trimLeft a ++ r :=
  trimLeftAux_append _ a r (Nat.le_refl _) hr

/-- `lastSpaceWidth`'s test of width `k`. -/
def tryWidth (s : Str) (k : Nat) : Bool :=
  k ≤ s.length &&
    (let d := decodeRune (s.drop (s.length - k)); d.2 == k && isSpace d.1)

theorem lastSpaceWidth_eq (s : Str) : lastSpaceWidth s =
    if s.isEmpty then none
    else if tryWidth s 1 then some 1
    else if tryWidth s 2 then some 2
    else if tryWidth s 3 then some 3
    else none := rfl

theorem tryWidth_append (r a : Str) (k : Nat) (hk : 1 ≤ k)
    (hr : ∀ b, r.getLast? = some b → Stop b) :
    tryWidth (r ++ a) k = tryWidth a k := by
  unfold tryWidth
  by_cases h : k ≤ a.length
  · have h1 : (r ++ a).drop ((r ++ a).length - k) = a.drop (a.length - k) := by
      rw [List.length_append, show r.length + a.length - k = r.length + (a.length - k) by omega,
        List.drop_append]
      simp
    rw [h1]
    have h2 : k ≤ (r ++ a).length := by simp; omega
    rw [decide_eq_true h, decide_eq_true h2]
  · have h3 : decide (k ≤ a.length) = false := by simpa using h
    rw [h3, Bool.false_and]
    by_cases h4 : k ≤ (r ++ a).length
    · rw [decide_eq_true h4, Bool.true_and]
      simp only [List.length_append] at h4
      -- the last `k` bytes contain the end of `r`
      rcases List.eq_nil_or_concat r with rfl | ⟨r', b, rfl⟩
      · simp at h4; omega
      · have hb := hr b (by simp)
        simp only [List.concat_eq_append, List.length_append, List.length_cons,
          List.length_nil] at h4 ⊢
        generalize hx : r'.drop (r'.length + (0 + 1) + a.length - k) = x
        have h5 : (r' ++ [b] ++ a).drop (r'.length + (0 + 1) + a.length - k) = x ++ (b :: a) := by
          rw [List.append_assoc, List.drop_append_of_le_length (by omega), hx]
          rfl
        rw [h5]
        have hxl : x.length + 1 + a.length = k := by
          rw [← hx, List.length_drop]; omega
        by_cases hxe : x = []
        · subst hxe
          rw [List.nil_append, decodeRune_ascii a hb.1]
          simp [hb.2]
        · rw [decodeRune_append hxe (asciiHead_cons hb.1)]
          have := decodeRune_width_le (a := x)
          have h6 : ((decodeRune x).2 == k) = false := by
            simp only [beq_eq_false_iff_ne]; omega
          simp [h6]
    · rw [decide_eq_false h4, Bool.false_and]

theorem lastSpaceWidth_append (r a : Str) (hr : ∀ b, r.getLast? = some b → Stop b) :
    lastSpaceWidth (r ++ a) = lastSpaceWidth a := by
  rw [lastSpaceWidth_eq, lastSpaceWidth_eq, tryWidth_append r a 1 (by omega) hr,
    tryWidth_append r a 2 (by omega) hr, tryWidth_append r a 3 (by omega) hr]
  cases a with
  | nil =>
    have : ∀ k, 1 ≤ k → tryWidth [] k = false := by
      intro k hk; simp [tryWidth]; intro h; omega
    rw [this 1 (by omega), this 2 (by omega), this 3 (by omega)]
    simp
  | cons b a => simp

theorem tryWidth_le {s : Str} {k : Nat} (h : tryWidth s k = true) : k ≤ s.length := by
  simp only [tryWidth, Bool.and_eq_true, decide_eq_true_eq] at h
  exact h.1

theorem lastSpaceWidth_some {s : Str} {k : Nat} (h : lastSpaceWidth s = some k) :
    1 ≤ k ∧ tryWidth s k = true := by
  rw [lastSpaceWidth_eq] at h
  by_cases h0 : s.isEmpty = true
  · rw [if_pos h0] at h; cases h
  · rw [if_neg h0] at h
    by_cases h1 : tryWidth s 1 = true
    · rw [if_pos h1] at h; cases h; exact ⟨by omega, h1⟩
    · rw [if_neg h1] at h
      by_cases h2 : tryWidth s 2 = true
      · rw [if_pos h2] at h; cases h; exact ⟨by omega, h2⟩
      · rw [if_neg h2] at h
        by_cases h3 : tryWidth s 3 = true
        · rw [if_pos h3] at h; cases h; exact ⟨by omega, h3⟩
        · rw [if_neg h3] at h; cases h

theorem lastSpaceWidth_le {s : Str} {k : Nat} (h : lastSpaceWidth s = some k) :
    1 ≤ k ∧ k ≤ s.length :=
  ⟨(lastSpaceWidth_some h).1, tryWidth_le (lastSpaceWidth_some h).2⟩

theorem trimRightAux_append (n m : Nat) (r a : Str) (hn : a.length ≤ n) (hm : a.length ≤ m)
    (hr : ∀ b, r.getLast? = some b → Stop b) :
    trimRightAux n (r ++ a) = r ++ trimRightAux m a := by
  have hnil : ∀ n, trimRightAux n r = r := by
    intro n
    cases n with
    | zero => rfl
    | succ n =>
      have := lastSpaceWidth_append r [] hr
      rw [List.append_nil] at this
      unfold trimRightAux
      rw [this]
      rfl
  induction n generalizing a m with
  | zero =>
    have : a = [] := by simpa using hn
    subst this
    have h0 : trimRightAux m ([] : Str) = [] := by cases m <;> rfl
    simp [h0, trimRightAux]
  | succ n ih =>
    cases m with
    | zero =>
      have : a = [] := by simpa using hm
      subst this
      rw [List.append_nil, hnil]; simp [trimRightAux]
    | succ m =>
      unfold trimRightAux
      rw [lastSpaceWidth_append r a hr]
      split
      · rename_i k hk
        have := lastSpaceWidth_le hk
        have h1 : (r ++ a).take ((r ++ a).length - k) = r ++ a.take (a.length - k) := by
          rw [List.length_append, show r.length + a.length - k = r.length + (a.length - k) by omega,
            List.take_append, List.take_of_length_le (by omega)]
          congr 2; omega
        rw [h1]
        exact ih m _ (by rw [List.length_take]; omega) (by rw [List.length_take]; omega)
      · rfl

theorem trimRight_append (r a : Str) (hr : ∀ b, r.getLast? = some b → Stop b) :
    trimRight (r ++ a) = r ++ trimRight a :=
  trimRightAux_append _ _ r a (by simp) (Nat.le_refl _) hr

/-! ## what is left after trimming -/

theorem trimLeftAux_head (n : Nat) (s : Str) (hn : s.length ≤ n) :
    trimLeftAux n s = [] ∨ isSpace (decodeRune (trimLeftAux n s)).1 = false := by
  induction n generalizing s with
  | zero => exact .inl (List.eq_nil_of_length_eq_zero (Nat.le_zero.1 hn))
  | succ n ih =>
    cases s with
    | nil => exact .inl rfl
    | cons b t =>
      unfold trimLeftAux
      dsimp only
      by_cases h : isSpace (decodeRune (b :: t)).1 = true
      · rw [if_pos h]
        have := decodeRune_width_pos b t
        exact ih _ (by simp only [List.length_drop]; omega)
      · rw [if_neg h]
        exact .inr (by simpa using h)

theorem trimRightAux_prefix (n : Nat) (s : Str) : trimRightAux n s <+: s := by
  induction n generalizing s with
  | zero => exact List.prefix_refl _
  | succ n ih =>
    unfold trimRightAux
    cases h : lastSpaceWidth s with
    | none => exact List.prefix_refl _
    | some k => exact (ih _).trans (List.take_prefix _ _)

theorem trimRightAux_last (n : Nat) (s : Str) (hn : s.length ≤ n) :
    lastSpaceWidth (trimRightAux n s) = none := by
  induction n generalizing s with
  | zero =>
    have : s = [] := by simpa using hn
    subst this; rfl
  | succ n ih =>
    unfold trimRightAux
    cases h : lastSpaceWidth s with
    | none => exact h
    | some k =>
      have := lastSpaceWidth_le h
      exact ih _ (by simp only [List.length_take]; omega)

theorem trimSpace_no_prefix {w s : Str} (hw : 1 ≤ w.length ∧ w.length ≤ 3)
    (hd : ∀ r, isSpace (decodeRune (w ++ r)).1 = true ∧ (decodeRune (w ++ r)).2 = w.length) :
    ¬ w <+: trimSpace s := by
  intro h
  obtain ⟨r, hr⟩ := h.trans (trimRightAux_prefix _ _)
  rcases trimLeftAux_head s.length s (Nat.le_refl _) with h1 | h1
  · have := congrArg List.length hr
    unfold trimLeft at this
    rw [h1] at this
    simp only [List.length_append, List.length_nil] at this
    omega
  · unfold trimLeft at hr
    rw [← hr, (hd r).1] at h1
    cases h1

theorem trimSpace_no_suffix {w s : Str} (hw : 1 ≤ w.length ∧ w.length ≤ 3)
    (hd : ∀ r, isSpace (decodeRune (w ++ r)).1 = true ∧ (decodeRune (w ++ r)).2 = w.length) :
    ¬ w <:+ trimSpace s := by
  rintro ⟨r, hr⟩
  have h1 : lastSpaceWidth (trimSpace s) = none := trimRightAux_last _ _ (Nat.le_refl _)
  have h2 : tryWidth (trimSpace s) w.length = true := by
    unfold tryWidth
    rw [← hr]
    have := hd []
    rw [List.append_nil] at this
    simp [this.1, this.2]
  rw [lastSpaceWidth_eq] at h1
  have h0 : (trimSpace s).isEmpty = false := by
    have := tryWidth_le h2
    cases h3 : trimSpace s with
    | nil => rw [h3] at this; simp only [List.length_nil] at this; omega
    | cons _ _ => rfl
  have : w.length = 1 ∨ w.length = 2 ∨ w.length = 3 := by omega
  rw [h0] at h1
  rcases this with h | h | h <;> rw [h] at h2 <;> simp [h2] at h1 <;>
    (repeat' split at h1) <;> simp at h1

end Sqlf
