import Verif.Model.GoStr
/-!
# Decimal digits
-/

namespace Sqlf

theorem digitByte {n : Nat} (h : n < 10) : (n.digitChar.toNat.toUInt8) = (48 + n).toUInt8 := by
  rw [Nat.toNat_digitChar_of_lt_ten h]

theorem digitByte_toNat {n : Nat} (h : n < 10) : ((48 + n).toUInt8).toNat = 48 + n := by
  simp [Nat.toUInt8, UInt8.toNat_ofNat']
  omega

theorem natDigits_eq (n : Nat) :
    natDigits n = if n < 10 then [(48 + n).toUInt8]
      else natDigits (n / 10) ++ [(48 + n % 10).toUInt8] := by
  unfold natDigits
  rw [Nat.toDigits_eq_if (by omega)]
  split
  · rename_i h; simp [digitByte h]
  · simp [digitByte (Nat.mod_lt n (by omega : 10 > 0))]

theorem natDigits_ne_nil (n : Nat) : natDigits n ≠ [] := by
  simp [natDigits]

theorem isDigitB_byte {n : Nat} (h : n < 10) : isDigitB ((48 + n).toUInt8) = true := by
  have := digitByte_toNat h
  simp only [isDigitB, Bool.and_eq_true, decide_eq_true_eq, UInt8.le_iff_toNat_le, this]
  constructor
  · show 48 ≤ _; omega
  · show _ ≤ 57; omega

theorem natDigits_all (n : Nat) : (natDigits n).all isDigitB = true := by
  induction n using Nat.strongRecOn with
  | _ n ih =>
    rw [natDigits_eq]
    split
    · rename_i h; simp only [List.all_cons, List.all_nil, isDigitB_byte h, Bool.and_self]
    · rw [List.all_append, ih _ (by omega)]
      simp only [List.all_cons, List.all_nil, isDigitB_byte (Nat.mod_lt n (by omega : 10 > 0)),
        Bool.and_self]

theorem digitsVal_append (s t : Str) :
    digitsVal (s ++ t) = t.foldl (fun a b => a * 10 + (b.toNat - 0x30)) (digitsVal s) := by
  simp [digitsVal]

theorem digitsVal_natDigits (n : Nat) : digitsVal (natDigits n) = n := by
  induction n using Nat.strongRecOn with
  | _ n ih =>
    rw [natDigits_eq]
    split
    · rename_i h; simp [digitsVal]; omega
    · rw [digitsVal_append, ih _ (by omega)]
      simp
      omega

theorem natDigits_inj {m n : Nat} (h : natDigits m = natDigits n) : m = n := by
  rw [← digitsVal_natDigits m, h, digitsVal_natDigits]

theorem natDigits_length_le {n k : Nat} (hk : 0 < k) : (natDigits n).length ≤ k ↔ n < 10 ^ k := by
  simp only [natDigits, List.length_map]
  exact Nat.length_toDigits_le_iff (by omega) hk

/-- The first digit is not zero unless the number is. -/
theorem natDigits_head {n : Nat} (h : 1 ≤ n) :
    ∃ b t, natDigits n = b :: t ∧ (0x31 : UInt8) ≤ b ∧ b ≤ 0x39 := by
  induction n using Nat.strongRecOn with
  | _ n ih =>
    rw [natDigits_eq]
    split
    · rename_i h'
      refine ⟨_, [], rfl, ?_, ?_⟩ <;>
        rw [UInt8.le_iff_toNat_le, digitByte_toNat h']
      · show 49 ≤ _; omega
      · show _ ≤ 57; omega
    · obtain ⟨b, t, h1, h2⟩ := ih (n / 10) (by omega) (by omega)
      exact ⟨b, t ++ [(48 + n % 10).toUInt8], by rw [h1]; rfl, h2⟩

theorem itoa_natCast (n : Nat) : itoa (n : Int) = natDigits n := rfl

end Sqlf
