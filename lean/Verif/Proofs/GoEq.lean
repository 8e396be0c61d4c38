import Verif.Model.Val
/-!
# Go's `==` is a partial equivalence relation
-/

namespace Sqlf

mutual
theorem Val.goEq_symm : ∀ a b : Val, a.goEq b = true → b.goEq a = true
  | .nil, b => by cases b <;> simp [Val.goEq]
  | .bool _ _, b => by cases b <;> simp [Val.goEq] <;> intros <;> simp_all
  | .int _ _, b => by cases b <;> simp [Val.goEq] <;> intros <;> simp_all
  | .uint _ _, b => by cases b <;> simp [Val.goEq] <;> intros <;> simp_all
  | .float _ _, b => by cases b <;> simp [Val.goEq] <;> intros <;> simp_all
  | .str _ _, b => by cases b <;> simp [Val.goEq] <;> intros <;> simp_all
  | .time _ _, b => by cases b <;> simp [Val.goEq] <;> intros <;> simp_all
  | .stringer _ _ _ _, b => by cases b <;> simp [Val.goEq] <;> intros <;> simp_all
  | .valuer _ _ _ _, b => by cases b <;> simp [Val.goEq] <;> intros <;> simp_all
  | .slice _ _, b => by cases b <;> simp [Val.goEq]
  | .array t es, b => by
    cases b <;> simp [Val.goEq]
    case array t' es' => intro h h'; exact ⟨h.symm, Val.goEqL_symm es es' h'⟩
  | .ptr _ _, b => by cases b <;> simp [Val.goEq] <;> intros <;> simp_all
  | .nilPtr _ _, b => by cases b <;> simp [Val.goEq] <;> intros <;> simp_all
  | .nilRecv _, b => by cases b <;> simp [Val.goEq] <;> intros <;> simp_all
  | .other _ _, b => by cases b <;> simp [Val.goEq] <;> intros <;> simp_all
theorem Val.goEqL_symm : ∀ a b : List Val, Val.goEqL a b = true → Val.goEqL b a = true
  | [], b => by cases b <;> simp [Val.goEqL]
  | a :: as, [] => by simp [Val.goEqL]
  | a :: as, b :: bs => by
    simp only [Val.goEqL, Bool.and_eq_true]
    intro h; exact ⟨Val.goEq_symm a b h.1, Val.goEqL_symm as bs h.2⟩
end

mutual
theorem Val.goEq_trans : ∀ a b c : Val, a.goEq b = true → b.goEq c = true → a.goEq c = true
  | .nil, b, c => by cases b <;> cases c <;> simp [Val.goEq]
  | .bool _ _, b, c => by cases b <;> cases c <;> simp [Val.goEq] <;> intros <;> simp_all
  | .int _ _, b, c => by cases b <;> cases c <;> simp [Val.goEq] <;> intros <;> simp_all
  | .uint _ _, b, c => by cases b <;> cases c <;> simp [Val.goEq] <;> intros <;> simp_all
  | .float _ _, b, c => by cases b <;> cases c <;> simp [Val.goEq] <;> intros <;> simp_all
  | .str _ _, b, c => by cases b <;> cases c <;> simp [Val.goEq] <;> intros <;> simp_all
  | .time _ _, b, c => by cases b <;> cases c <;> simp [Val.goEq] <;> intros <;> simp_all
  | .stringer _ _ _ _, b, c => by cases b <;> cases c <;> simp [Val.goEq] <;> intros <;> simp_all
  | .valuer _ _ _ _, b, c => by cases b <;> cases c <;> simp [Val.goEq] <;> intros <;> simp_all
  | .slice _ _, b, _ => by intro h; cases b <;> simp [Val.goEq] at h
  | .array t es, b, c => by
    cases b <;> cases c <;> simp [Val.goEq]
    case array.array t' es' t'' es'' =>
      intro h h' h2 h2'; exact ⟨h.trans h2, Val.goEqL_trans es es' es'' h' h2'⟩
  | .ptr _ _, b, c => by cases b <;> cases c <;> simp [Val.goEq] <;> intros <;> simp_all
  | .nilPtr _ _, b, c => by cases b <;> cases c <;> simp [Val.goEq] <;> intros <;> simp_all
  | .nilRecv _, b, c => by cases b <;> cases c <;> simp [Val.goEq] <;> intros <;> simp_all
  | .other _ _, b, c => by cases b <;> cases c <;> simp [Val.goEq] <;> intros <;> simp_all
theorem Val.goEqL_trans : ∀ a b c : List Val, Val.goEqL a b = true → Val.goEqL b c = true →
    Val.goEqL a c = true
  | [], b, c => by cases b <;> cases c <;> simp [Val.goEqL]
  | a :: as, b, c => by
    cases b <;> cases c <;> simp [Val.goEqL]
    case cons.cons b bs c cs =>
      intro h h' h2 h2'; exact ⟨Val.goEq_trans a b c h h2, Val.goEqL_trans as bs cs h' h2'⟩
end

/-- Values that are `==` to themselves: no slice, no NaN inside. -/
def Val.selfEq (v : Val) : Bool := v.goEq v

end Sqlf
