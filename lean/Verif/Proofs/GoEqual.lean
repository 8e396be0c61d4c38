import Verif.Spec.GoEqual
/-!
# The model's `==` and hashability are those of the specification
-/

namespace Sqlf

open Spec

mutual
theorem goEq_of : ∀ {a b : Val}, GoEqual a b → a.goEq b = true
  | _, _, .nil => rfl
  | _, _, .bool .. => by simp [Val.goEq]
  | _, _, .int .. => by simp [Val.goEq]
  | _, _, .uint .. => by simp [Val.goEq]
  | _, _, .float .. => by simp [Val.goEq]
  | _, _, .str .. => by simp [Val.goEq]
  | _, _, .time .. => by simp [Val.goEq]
  | _, _, .stringer .. => by simp [Val.goEq]
  | _, _, .valuer .. => by simp [Val.goEq]
  | _, _, .array _ _ _ h => by simp [Val.goEq, goEqL_of h]
  | _, _, .ptr .. => by simp [Val.goEq]
  | _, _, .nilPtr .. => by simp [Val.goEq]
  | _, _, .nilRecv .. => by simp [Val.goEq]
  | _, _, .other .. => by simp [Val.goEq]
theorem goEqL_of : ∀ {a b : List Val}, GoEqualL a b → Val.goEqL a b = true
  | _, _, .nil => rfl
  | _, _, .cons _ _ _ _ h hs => by simp [Val.goEqL, goEq_of h, goEqL_of hs]
end

mutual
theorem goEqual_of : ∀ (a b : Val), a.goEq b = true → GoEqual a b
  | .nil, b, h => by cases b <;> simp [Val.goEq] at h; exact .nil
  | .bool _ _, b, h => by cases b <;> simp [Val.goEq] at h; obtain ⟨rfl, rfl⟩ := h; exact .bool ..
  | .int _ _, b, h => by cases b <;> simp [Val.goEq] at h; obtain ⟨rfl, rfl⟩ := h; exact .int ..
  | .uint _ _, b, h => by cases b <;> simp [Val.goEq] at h; obtain ⟨rfl, rfl⟩ := h; exact .uint ..
  | .float _ ⟨n, v, s⟩, b, h => by
    cases b <;> simp [Val.goEq] at h
    case float t' f' =>
      obtain ⟨n', v', s'⟩ := f'
      obtain ⟨⟨⟨rfl, h1⟩, h2⟩, h3⟩ := h
      cases h1; cases h2; cases h3
      exact .float ..
  | .str _ _, b, h => by cases b <;> simp [Val.goEq] at h; obtain ⟨rfl, rfl⟩ := h; exact .str ..
  | .time _ _, b, h => by cases b <;> simp [Val.goEq] at h; cases h; exact .time ..
  | .stringer _ _ _ _, b, h => by cases b <;> simp [Val.goEq] at h; cases h; exact .stringer ..
  | .valuer _ _ _ _, b, h => by cases b <;> simp [Val.goEq] at h; cases h; exact .valuer ..
  | .slice _ _, b, h => by cases b <;> simp [Val.goEq] at h
  | .array t es, b, h => by
    cases b <;> simp [Val.goEq] at h
    case array t' es' => obtain ⟨rfl, h⟩ := h; exact .array _ _ _ (goEqualL_of es es' h)
  | .ptr _ _, b, h => by cases b <;> simp [Val.goEq] at h; cases h; exact .ptr ..
  | .nilPtr _ _, b, h => by cases b <;> simp [Val.goEq] at h; cases h; exact .nilPtr ..
  | .nilRecv _, b, h => by cases b <;> simp [Val.goEq] at h; cases h; exact .nilRecv ..
  | .other _ _, b, h => by cases b <;> simp [Val.goEq] at h; cases h; exact .other ..
theorem goEqualL_of : ∀ (a b : List Val), Val.goEqL a b = true → GoEqualL a b
  | [], b, h => by cases b <;> simp [Val.goEqL] at h; exact .nil
  | a :: as, [], h => by simp [Val.goEqL] at h
  | a :: as, b :: bs, h => by
    simp only [Val.goEqL, Bool.and_eq_true] at h
    exact .cons _ _ _ _ (goEqual_of a b h.1) (goEqualL_of as bs h.2)
end

theorem goEqual_iff (a b : Val) : GoEqual a b ↔ a.goEq b = true := ⟨goEq_of, goEqual_of a b⟩

theorem not_goEqual_iff (a b : Val) : ¬ GoEqual a b ↔ a.goEq b = false := by
  rw [goEqual_iff]; cases a.goEq b <;> simp

theorem hashableL_iff (es : List Val) : Val.hashableL es = true ↔ ∀ v ∈ es, v.hashable = true := by
  induction es with
  | nil => simp [Val.hashableL]
  | cons v es ih => simp [Val.hashableL, ih]

theorem hashable_of_unhashable {v : Val} (h : Unhashable v) : v.hashable = false := by
  induction h with
  | array ty es v hv _ ih =>
    cases hh : (Val.array ty es).hashable with
    | false => rfl
    | true =>
      rw [Val.hashable, hashableL_iff] at hh
      rw [hh v hv] at ih; cases ih
  | _ => simp [Val.hashable]

mutual
theorem unhashable_of : ∀ (v : Val), v.hashable = false → Unhashable v
  | .nil, h => by simp [Val.hashable] at h
  | .bool .., h => by simp [Val.hashable] at h
  | .int .., h => by simp [Val.hashable] at h
  | .uint .., h => by simp [Val.hashable] at h
  | .float .., h => by simp [Val.hashable] at h
  | .str .., h => by simp [Val.hashable] at h
  | .time .., h => by simp [Val.hashable] at h
  | .stringer .., h => by simp [Val.hashable] at h; cases h; exact .stringer ..
  | .valuer .., h => by simp [Val.hashable] at h; cases h; exact .valuer ..
  | .slice .., _ => .slice ..
  | .array t es, h => by
    simp only [Val.hashable] at h
    obtain ⟨v, hv, hu⟩ := unhashable_ofL es h
    exact .array _ _ v hv hu
  | .ptr .., h => by simp [Val.hashable] at h
  | .nilPtr .., h => by simp [Val.hashable] at h
  | .nilRecv .., h => by simp [Val.hashable] at h
  | .other .., h => by simp [Val.hashable] at h; cases h; exact .other ..
theorem unhashable_ofL : ∀ (es : List Val), Val.hashableL es = false → ∃ v ∈ es, Unhashable v
  | [], h => by simp [Val.hashableL] at h
  | v :: es, h => by
    simp only [Val.hashableL, Bool.and_eq_false_iff] at h
    rcases h with h | h
    · exact ⟨v, by simp, unhashable_of v h⟩
    · obtain ⟨w, hw, hu⟩ := unhashable_ofL es h
      exact ⟨w, by simp [hw], hu⟩
end

theorem unhashable_iff (v : Val) : Unhashable v ↔ v.hashable = false := ⟨hashable_of_unhashable, unhashable_of v⟩

theorem not_unhashable_iff (v : Val) : ¬ Unhashable v ↔ v.hashable = true := by
  rw [unhashable_iff]; cases v.hashable <;> simp

theorem not_unhashable_fun : (fun v => ¬ Unhashable v) = fun v : Val => v.hashable = true :=
  funext fun v => propext (not_unhashable_iff v)

theorem goEqual_self_fun : (fun v => GoEqual v v) = fun v : Val => v.goEq v = true :=
  funext fun v => propext (goEqual_iff v v)

end Sqlf
