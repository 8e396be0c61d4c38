import Verif.Spec.Cond
import Verif.Proofs.DocText
/-!
# Conditions joined by AND
-/

namespace Sqlf

open Spec

theorem closed_words {q : Bool} {d : Nat} {word t : Str} (h : closedFrom q d t = true) (u : Str) :
    wordsFrom q d word (t ++ 0x20 :: u) = wordsFrom q d word t ++ wordsFrom false 0 [] u := by
  obtain ⟨r, hr⟩ : ∃ r, r = wordsFrom false 0 [] u := ⟨_, rfl⟩
  rw [← hr]
  induction t generalizing q d word with
  | nil =>
    subst hr
    simp only [closedFrom, Bool.and_eq_true, Bool.not_eq_true', decide_eq_true_eq] at h
    obtain ⟨rfl, rfl⟩ := h
    simp [wordsFrom]
  | cons b t ih =>
    unfold closedFrom at h
    rw [List.cons_append]
    unfold wordsFrom
    by_cases hq : q = true
    · rw [if_pos hq] at h
      rw [if_pos hq, if_pos hq]
      exact ih h
    · rw [if_neg hq] at h
      rw [if_neg hq, if_neg hq]
      by_cases h1 : b = 0x27
      · rw [if_pos h1] at h
        rw [if_pos h1, if_pos h1]
        exact ih h
      · rw [if_neg h1] at h
        rw [if_neg h1, if_neg h1]
        by_cases h2 : b = 0x28
        · rw [if_pos h2] at h
          rw [if_pos h2, if_pos h2]
          by_cases h3 : d = 0
          · subst h3
            rw [if_pos rfl, if_pos rfl, ih h, List.append_assoc]
          · rw [if_neg h3, if_neg h3]
            exact ih h
        · rw [if_neg h2] at h
          rw [if_neg h2, if_neg h2]
          by_cases h4 : b = 0x29
          · rw [if_pos h4] at h
            rw [if_pos h4, if_pos h4]
            by_cases h3 : d ≤ 1
            · have h0 : d - 1 = 0 := by omega
              rw [h0] at h
              rw [if_pos h3, if_pos h3, ih h, List.cons_append]
            · rw [if_neg h3, if_neg h3]
              exact ih h
          · rw [if_neg h4] at h
            rw [if_neg h4, if_neg h4]
            by_cases h5 : b = 0x20 ∧ d = 0
            · rw [if_pos h5, if_pos h5]
              obtain ⟨-, rfl⟩ := h5
              rw [ih h, List.append_assoc]
            · rw [if_neg h5, if_neg h5]
              exact ih h

theorem wordsOf_and {t : Str} (h : closedFrom false 0 t = true) (u : Str) :
    wordsOf (t ++ lit " AND " ++ u) = wordsOf t ++ lit "AND" :: wordsOf u := by
  have e : t ++ lit " AND " ++ u = t ++ 0x20 :: (lit "AND" ++ 0x20 :: u) := by
    rw [List.append_assoc]; rfl
  rw [e]
  unfold wordsOf
  rw [closed_words h, closed_words (by decide)]
  rfl

theorem closed_and {q : Bool} {d : Nat} {t : Str} (h : closedFrom q d t = true) (u : Str) :
    closedFrom q d (t ++ u) = closedFrom false 0 u := by
  induction t generalizing q d with
  | nil =>
    simp only [closedFrom, Bool.and_eq_true, Bool.not_eq_true', decide_eq_true_eq] at h
    obtain ⟨rfl, rfl⟩ := h
    rfl
  | cons b t ih =>
    unfold closedFrom at h
    rw [List.cons_append]
    rw [closedFrom]
    by_cases hq : q = true
    · rw [if_pos hq] at h
      rw [if_pos hq]
      exact ih h
    · rw [if_neg hq] at h
      rw [if_neg hq]
      by_cases h1 : b = 0x27
      · rw [if_pos h1] at h
        rw [if_pos h1]
        exact ih h
      · rw [if_neg h1] at h
        rw [if_neg h1]
        by_cases h2 : b = 0x28
        · rw [if_pos h2] at h
          rw [if_pos h2]
          exact ih h
        · rw [if_neg h2] at h
          rw [if_neg h2]
          by_cases h4 : b = 0x29
          · rw [if_pos h4] at h
            rw [if_pos h4]
            exact ih h
          · rw [if_neg h4] at h
            rw [if_neg h4]
            exact ih h

theorem disjuncts_none {ws : List Str} (h : ∀ w ∈ ws, isKeyword "OR" w = false) : disjuncts ws = [ws] := by
  induction ws with
  | nil => rfl
  | cons w ws ih =>
    unfold disjuncts
    rw [h w (by simp), if_neg (by simp), ih fun x hx => h x (by simp [hx])]
    rfl

theorem addWord_append {w : Str} {ps qs : List (List Str)} (h : ps ≠ []) : addWord w (ps ++ qs) = addWord w ps ++ qs := by
  cases ps with
  | nil => exact absurd rfl h
  | cons p ps => rfl

theorem conjuncts_ne (b : Bool) (ws : List Str) : conjuncts b ws ≠ [] := by
  cases ws with
  | nil => simp [conjuncts]
  | cons w ws =>
    unfold conjuncts
    have hg : ∀ ps, addWord w ps ≠ [] := by intro ps; cases ps <;> simp [addWord]
    split
    · split
      · exact hg _
      · simp
    · exact hg _

theorem conjuncts_and {b : Bool} {ws : List Str} (h : betweenClosed b ws = true) (vs : List Str) :
    conjuncts b (ws ++ lit "AND" :: vs) = conjuncts b ws ++ conjuncts false vs := by
  induction ws generalizing b with
  | nil =>
    simp only [betweenClosed, Bool.not_eq_true'] at h
    subst h
    have : isKeyword "AND" (lit "AND") = true := by decide
    simp [conjuncts, this]
  | cons w ws ih =>
    unfold betweenClosed at h
    rw [List.cons_append, conjuncts, conjuncts]
    by_cases hw : isKeyword "AND" w = true
    · rw [if_pos hw] at h
      rw [if_pos hw, if_pos hw, ih h]
      cases b with
      | true =>
        rw [if_pos rfl, if_pos rfl]
        exact addWord_append (conjuncts_ne _ _)
      | false => rfl
    · rw [if_neg hw] at h
      rw [if_neg hw, if_neg hw, ih h]
      exact addWord_append (conjuncts_ne _ _)

theorem between_and {b : Bool} {ws : List Str} (h : betweenClosed b ws = true) (vs : List Str) :
    betweenClosed b (ws ++ lit "AND" :: vs) = betweenClosed false vs := by
  induction ws generalizing b with
  | nil =>
    have : isKeyword "AND" (lit "AND") = true := by decide
    simp [betweenClosed, this]
  | cons w ws ih =>
    unfold betweenClosed at h
    rw [List.cons_append, betweenClosed]
    by_cases hw : isKeyword "AND" w = true
    · rw [if_pos hw] at h
      rw [if_pos hw, ih h]
    · rw [if_neg hw] at h
      rw [if_neg hw, ih h]

theorem holds_and {env : List Str → Bool} {n : Nat} {t u : Str} (ht : AndSafe t) (hu : AndSafe u) :
    holds env (n + 1) (t ++ lit " AND " ++ u) = (holds env (n + 1) t && holds env (n + 1) u) := by
  unfold holds
  rw [wordsOf_and ht.closed, disjuncts_none ht.noOr, disjuncts_none hu.noOr, disjuncts_none, List.any_cons, List.any_cons,
    List.any_cons, conjuncts_and ht.between]
  · simp
  · intro w hw
    rcases List.mem_append.1 hw with h | h
    · exact ht.noOr w h
    · rcases List.mem_cons.1 h with rfl | h
      · decide
      · exact hu.noOr w h

theorem andSafe_and {t u : Str} (ht : AndSafe t) (hu : AndSafe u) : AndSafe (t ++ lit " AND " ++ u) := by
  obtain ⟨b, hb, hb'⟩ := ht.first
  obtain ⟨c, hc, hc'⟩ := hu.last
  refine ⟨?_, ?_, ?_, ⟨b, ?_, hb'⟩, ⟨c, ?_, hc'⟩⟩
  · rw [List.append_assoc, closed_and ht.closed, closed_and (by decide)]
    exact hu.closed
  · rw [wordsOf_and ht.closed, between_and ht.between]
    exact hu.between
  · rw [wordsOf_and ht.closed]
    intro w hw
    rcases List.mem_append.1 hw with h | h
    · exact ht.noOr w h
    · rcases List.mem_cons.1 h with rfl | h
      · decide
      · exact hu.noOr w h
  · cases t with
    | nil => cases hb
    | cons x t => exact hb
  · rw [List.getLast?_append, hc]
    rfl

theorem holds_join {env : List Str → Bool} {n : Nat} {t : Str} {ts : List Str} (h : ∀ w ∈ t :: ts, AndSafe w) :
    AndSafe (strJoin (lit " AND ") (t :: ts)) ∧
    holds env (n + 1) (strJoin (lit " AND ") (t :: ts)) = (t :: ts).all (holds env (n + 1)) := by
  induction ts generalizing t with
  | nil => exact ⟨h t (by simp), by simp [strJoin]⟩
  | cons u ts ih =>
    obtain ⟨h1, h2⟩ := ih (t := u) fun w hw => h w (List.mem_cons_of_mem _ hw)
    have ht := h t (by simp)
    refine ⟨andSafe_and ht h1, ?_⟩
    show holds env (n + 1) (t ++ lit " AND " ++ strJoin (lit " AND ") (u :: ts)) = _
    rw [holds_and ht h1, h2]
    rfl

theorem printable_stop {b : UInt8} (h : 0x20 < b ∧ b < 0x7F) : Stop b := by
  obtain ⟨h1, h2⟩ := h
  have h1' : 32 < b.toNat := h1
  have h2' : b.toNat < 127 := h2
  refine ⟨?_, ?_⟩
  · show b.toNat < 128
    omega
  · generalize b.toNat = x at h1' h2'
    have key : ∀ y : Nat, 32 < y → y < 127 → isSpace y = false := by
      intro y hy1 hy2
      have e : ∀ k : Nat, k ≤ 32 ∨ 127 ≤ k → (y == k) = false := by
        intro k hk
        rw [beq_eq_false_iff_ne]
        omega
      have e2 : decide (0x2000 ≤ y) = false := by
        rw [decide_eq_false_iff_not]
        omega
      unfold isSpace
      rw [e 0x09 (by omega), e 0x0A (by omega), e 0x0B (by omega), e 0x0C (by omega), e 0x0D (by omega), e 0x20 (by omega),
        e 0x85 (by omega), e 0xA0 (by omega), e 0x1680 (by omega), e2, e 0x2028 (by omega), e 0x2029 (by omega),
        e 0x202F (by omega), e 0x205F (by omega), e 0x3000 (by omega)]
      rfl
    exact key x h1' h2'

theorem andSafe_trim {t : Str} (h : AndSafe t) : trimSpace t = t := by
  unfold trimSpace
  obtain ⟨b, hb, hb'⟩ := h.first
  obtain ⟨c, hc, hc'⟩ := h.last
  have h1 : trimLeft t = t := trimLeft_append [] t fun x hx => by
    rw [hb] at hx
    cases hx
    exact printable_stop hb'
  have h2 : trimRight t = t := by
    have : trimRight (t ++ []) = t ++ [] := trimRight_append t [] fun x hx => by
      rw [hc] at hx
      cases hx
      exact printable_stop hc'
    rwa [List.append_nil] at this
  rw [h1, h2]

end Sqlf
