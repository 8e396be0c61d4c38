import Verif.Model.Syntax
/-!
# Lemmas on decoding and on the lexer
-/

namespace Sqlf

/-- Facts about the first rune of a non-empty string: it is the first byte if that is ASCII;
otherwise its code is at least 0x80 and it takes at least one byte, all of them non-ASCII. -/
theorem decodeRune_ascii {b : UInt8} (t : Str) (h : b < 0x80) :
    decodeRune (b :: t) = (b.toNat, 1) := by
  simp [decodeRune, h]

private theorem toNat_sub_le {a b : UInt8} : (a < b) ↔ a.toNat < b.toNat := by
  exact UInt8.lt_iff_toNat_lt

private def HiOk (s : Str) (p : Rune × Nat) : Prop :=
  0x80 ≤ p.1 ∧ 1 ≤ p.2 ∧ p.2 ≤ s.length ∧ ∀ c ∈ s.take p.2, ¬ c < (0x80 : UInt8)

private theorem decodeRune_hiOk {b : UInt8} (t : Str) (h : ¬ b < 0x80) :
    HiOk (b :: t) (decodeRune (b :: t)) := by
  have herr : HiOk (b :: t) (runeError, 1) := by simpa [HiOk, runeError] using h
  have hb : 128 ≤ b.toNat := by
    have := UInt8.le_iff_toNat_le.mp (UInt8.not_lt.mp h); simpa using this
  unfold decodeRune
  dsimp only
  rw [if_neg h]
  split
  · exact herr
  · rename_i h1
    have hb1 : 0xC2 ≤ b.toNat := by
      have := UInt8.le_iff_toNat_le.mp (UInt8.not_lt.mp h1); simpa using this
    split
    · split
      · rename_i s1 t'
        split
        · rename_i hc
          simp [isCont] at hc
          have hc1 : 128 ≤ s1.toNat := by
            have := UInt8.le_iff_toNat_le.mp hc.1; simpa using this
          refine ⟨by show 128 ≤ (b.toNat - 192) * 64 + (s1.toNat - 128); omega, by simp, by simp, ?_⟩
          intro c hcm
          simp at hcm
          rcases hcm with rfl | rfl
          · exact h
          · rw [UInt8.not_lt]; exact hc.1
        · exact herr
      · exact herr
    · rename_i h2
      have hb2 : 0xE0 ≤ b.toNat := by
        have := UInt8.le_iff_toNat_le.mp (UInt8.not_lt.mp h2); simpa using this
      split
      · split
        · rename_i s1 s2 t'
          generalize hlo' : (if b = 0xE0 then 0xA0 else 0x80 : UInt8) = lo
          generalize (if b = 0xED then 0x9F else 0xBF : UInt8) = hi
          have hlo1 : (128 : UInt8) ≤ lo := by
            rw [← hlo']; split <;> decide
          have hlo2 : b = 0xE0 → lo = 0xA0 := by
            intro hE; rw [← hlo', if_pos hE]
          split
          · rename_i hc
            simp [isCont] at hc
            obtain ⟨⟨hlo, hhi⟩, hc2, hc2'⟩ := hc
            have hs1 : (128 : UInt8) ≤ s1 := UInt8.le_trans hlo1 hlo
            have hs1' : 128 ≤ s1.toNat := by
              have := UInt8.le_iff_toNat_le.mp hs1; simpa using this
            have hs2' : 128 ≤ s2.toNat := by
              have := UInt8.le_iff_toNat_le.mp hc2; simpa using this
            refine ⟨?_, by simp, by simp, ?_⟩
            · show (128 : Nat) ≤ (b.toNat - 224) * 4096 + (s1.toNat - 128) * 64 + (s2.toNat - 128)
              by_cases hE : b = 0xE0
              · rw [hlo2 hE] at hlo
                subst hE
                have := UInt8.le_iff_toNat_le.mp hlo
                have h0 : (0xE0 : UInt8).toNat = 0xE0 := rfl
                simp at this
                omega
              · have : 0xE0 ≠ b.toNat := by
                  intro hh; apply hE; apply UInt8.toNat.inj; rw [← hh]; rfl
                simp; omega
            · intro c hcm
              simp at hcm
              rcases hcm with rfl | rfl | rfl
              · exact h
              · rw [UInt8.not_lt]; exact hs1
              · rw [UInt8.not_lt]; exact hc2
          · exact herr
        · exact herr
      · rename_i h3
        have hb3 : 0xF0 ≤ b.toNat := by
          have := UInt8.le_iff_toNat_le.mp (UInt8.not_lt.mp h3); simpa using this
        split
        · split
          · rename_i s1 s2 s3 t'
            generalize hlo' : (if b = 0xF0 then 0x90 else 0x80 : UInt8) = lo
            generalize (if b = 0xF4 then 0x8F else 0xBF : UInt8) = hi
            have hlo1 : (128 : UInt8) ≤ lo := by
              rw [← hlo']; split <;> decide
            have hlo2 : b = 0xF0 → lo = 0x90 := by
              intro hE; rw [← hlo', if_pos hE]
            split
            · rename_i hc
              simp [isCont] at hc
              obtain ⟨⟨⟨hlo, hhi⟩, hc2, hc2'⟩, hc3, hc3'⟩ := hc
              have hs1 : (128 : UInt8) ≤ s1 := UInt8.le_trans hlo1 hlo
              have hs1' : 128 ≤ s1.toNat := by
                have := UInt8.le_iff_toNat_le.mp hs1; simpa using this
              refine ⟨?_, by simp, by simp, ?_⟩
              · show (128 : Nat) ≤ (b.toNat - 240) * 262144 + (s1.toNat - 128) * 4096 + (s2.toNat - 128) * 64 + (s3.toNat - 128)
                by_cases hE : b = 0xF0
                · rw [hlo2 hE] at hlo
                  subst hE
                  have := UInt8.le_iff_toNat_le.mp hlo
                  have h0 : (0xF0 : UInt8).toNat = 0xF0 := rfl
                  simp at this
                  omega
                · have : 0xF0 ≠ b.toNat := by
                    intro hh; apply hE; apply UInt8.toNat.inj; rw [← hh]; rfl
                  omega
              · intro c hcm
                simp at hcm
                rcases hcm with rfl | rfl | rfl | rfl
                · exact h
                · rw [UInt8.not_lt]; exact hs1
                · rw [UInt8.not_lt]; exact hc2
                · rw [UInt8.not_lt]; exact hc3
            · exact herr
          · exact herr
        · exact herr

theorem decodeRune_hi {b : UInt8} (t : Str) (h : ¬ b < 0x80) :
    0x80 ≤ (decodeRune (b :: t)).1 ∧ 1 ≤ (decodeRune (b :: t)).2 ∧
    (decodeRune (b :: t)).2 ≤ (b :: t).length ∧
    ∀ c ∈ (b :: t).take (decodeRune (b :: t)).2, ¬ c < (0x80 : UInt8) :=
  decodeRune_hiOk t h

theorem decodeRune_width_pos (b : UInt8) (t : Str) :
    1 ≤ (decodeRune (b :: t)).2 ∧ (decodeRune (b :: t)).2 ≤ (b :: t).length := by
  by_cases h : b < 0x80
  · rw [decodeRune_ascii t h]; simp
  · have := decodeRune_hi t h; exact ⟨this.2.1, this.2.2.1⟩

namespace Lex

theorem rune_cons_ascii {tok : Str} {b : UInt8} {t : Str} {e : Bool} (h : b < 0x80) :
    (Lex.mk tok (b :: t) e).rune = b.toNat := by
  simp [rune, decodeRune_ascii t h]

theorem rune_cons_hi {tok : Str} {b : UInt8} {t : Str} {e : Bool} (h : ¬ b < 0x80) :
    0x80 ≤ (Lex.mk tok (b :: t) e).rune := by
  simpa [rune] using (decodeRune_hi t h).1

theorem next_cons_ascii {tok : Str} {b : UInt8} {t : Str} {e : Bool} (h : b < 0x80) :
    (Lex.mk tok (b :: t) e).next = ⟨tok ++ [b], t, e⟩ := by
  simp [next, width, decodeRune_ascii t h]

@[simp] theorem next_nil {tok : Str} {e : Bool} : (Lex.mk tok [] e).next = ⟨tok, [], true⟩ := rfl

@[simp] theorem rune_nil {tok : Str} {e : Bool} :
    (Lex.mk tok [] e).rune = if e then eofRune else runeError := rfl

/-- `Next` on a non-ASCII byte skips a non-empty block of non-ASCII bytes. -/
theorem next_cons_hi {tok : Str} {b : UInt8} {t : Str} {e : Bool} (h : ¬ b < 0x80) :
    ∃ c r, b :: t = c ++ r ∧ c ≠ [] ∧ (∀ x ∈ c, ¬ x < (0x80 : UInt8)) ∧
      (Lex.mk tok (b :: t) e).next = ⟨tok ++ c, r, e⟩ := by
  obtain ⟨_, h1, h2, h3⟩ := decodeRune_hi t h
  refine ⟨(b :: t).take (decodeRune (b :: t)).2, (b :: t).drop (decodeRune (b :: t)).2,
    (List.take_append_drop _ _).symm, ?_, h3, by simp [next, width]⟩
  intro hc
  have := congrArg List.length hc
  rw [List.length_take, List.length_nil] at this
  omega

theorem next_length {l : Lex} (h : l.rest ≠ []) : l.next.rest.length < l.rest.length := by
  obtain ⟨tok, rest, e⟩ := l
  cases rest with
  | nil => exact absurd rfl h
  | cons b t =>
    have := decodeRune_width_pos b t
    simp [next, width]
    simp at this
    omega

/-- One more than the bytes left, as long as the end of input was not noticed. -/
def measure (l : Lex) : Nat := l.rest.length + (if l.rest = [] ∧ l.eof = true then 0 else 1)

theorem measure_next_le (l : Lex) : l.next.measure ≤ l.measure := by
  obtain ⟨tok, rest, e⟩ := l
  cases rest with
  | nil => simp [measure, next]
  | cons b t =>
    have := decodeRune_width_pos b t
    simp only [measure, next, width, List.length_drop]
    simp at this ⊢
    split <;> omega

/-- As long as the current rune is not EOF, `Next` makes progress. -/
theorem measure_next_lt (l : Lex) (h : l.rune ≠ eofRune) : l.next.measure < l.measure := by
  obtain ⟨tok, rest, e⟩ := l
  cases rest with
  | nil =>
    cases e
    · simp [measure, next]
    · simp at h
  | cons b t =>
    have := decodeRune_width_pos b t
    simp only [measure, next, width, List.length_drop]
    simp at this ⊢
    split <;> omega

@[simp] theorem measure_startToken (l : Lex) : l.startToken.measure = l.measure := rfl

theorem measure_le_fuel (l : Lex) : l.measure < l.fuel := by
  simp only [measure, fuel]; split <;> omega

end Lex

end Sqlf
