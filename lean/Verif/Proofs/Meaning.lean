import Verif.Spec.Refs
import Verif.Proofs.ParseToks
/-!
# Lemmas about the meaning of templates
-/

namespace Sqlf

open Spec

/-- Number of bind variables. -/
def bindCount : List Item → Nat
  | [] => 0
  | .qmark :: is => bindCount is + 1
  | .dollarN _ :: is => bindCount is + 1
  | _ :: is => bindCount is

theorem meaning_append (a b : List Item) (k : Nat) (q : Bool) :
    meaning k q (a ++ b) = (meaning k q a).bind fun x =>
      (meaning (k + bindCount a) (q || a.any isQmark) b).map (x ++ ·) := by
  induction a generalizing k q with
  | nil => simp [meaning, bindCount]
  | cons i a ih =>
    cases i
    case qmark =>
      have hc : k + (bindCount a + 1) = k + 1 + bindCount a := by omega
      simp only [List.cons_append, meaning, bindCount, isQmark, ih, hc, List.any_cons,
        Bool.true_or, Bool.or_true]
      cases meaning (k+1) true a <;> simp <;> rfl
    case dollarN n =>
      have hc : k + (bindCount a + 1) = k + 1 + bindCount a := by omega
      simp only [List.cons_append, meaning, bindCount, isQmark, ih, hc, List.any_cons,
        Bool.false_or]
      cases q
      · simp only [Bool.false_eq_true, if_false]
        cases meaning (k+1) false a <;> simp <;> rfl
      · simp
    all_goals
      simp only [List.cons_append, meaning, bindCount, isQmark, ih, List.any_cons, Bool.false_or]
      cases meaning k q a <;> simp <;> rfl

theorem refs_glue (es : List Expr) : refs (glue es) = refs es := by
  induction es with
  | nil => rfl
  | cons e es ih =>
    cases e <;> simp [glue, refs, ih]
    case plain t =>
      split
      · exact ih
      · split <;> simp_all [refs]

theorem calls_glue (es : List Expr) : calls (glue es) = calls es := by
  induction es with
  | nil => rfl
  | cons e es ih =>
    cases e <;> simp [glue, calls, ih]
    case plain t =>
      split
      · exact ih
      · split <;> simp_all [calls]

theorem plainText_glue (es : List Expr) : plainText (glue es) = plainText es := by
  induction es with
  | nil => rfl
  | cons e es ih =>
    cases e <;> simp [glue, plainText, ih]
    case plain t =>
      split
      · simp_all
      · split <;> simp_all [plainText]

theorem plainText_meaning (is : List Item) (k : Nat) (q : Bool) (es : List Expr)
    (h : meaning k q is = some es) : plainText es = itemText is := by
  induction is generalizing k q es with
  | nil => simp [meaning] at h; subst h; rfl
  | cons i is ih =>
    cases i <;> simp [meaning] at h
    case dollarN n =>
      obtain ⟨_, es', he, rfl⟩ := h
      simp [plainText, itemText, ih _ _ _ he]
    all_goals
      obtain ⟨es', he, rfl⟩ := h
      simp [plainText, itemText, ih _ _ _ he]

theorem refs_meaning_question (is : List Item) (k : Nat) (q : Bool)
    (hd : is.any isDollarN = false) (es : List Expr) (h : meaning k q is = some es) :
    refs es = (List.range (is.filter isQmark).length).map fun j => ((k + 1 + j : Nat) : Int) := by
  induction is generalizing k q es with
  | nil => simp [meaning] at h; subst h; rfl
  | cons i is ih =>
    simp only [List.any_cons, Bool.or_eq_false_iff] at hd
    cases i <;> simp [meaning] at h
    case dollarN n => simp [isDollarN] at hd
    case qmark =>
      obtain ⟨es', he, rfl⟩ := h
      rw [List.filter_cons_of_pos (by rfl), List.length_cons, List.range_succ_eq_map, List.map_cons,
        List.map_map, refs, ih _ _ hd.2 _ he]
      congr 1
      apply List.map_congr_left
      intro j _
      show ((_ : Nat) : Int) = ((_ : Nat) : Int)
      congr 1
      show _ = k + 1 + (j + 1)
      omega
    all_goals
      obtain ⟨es', he, rfl⟩ := h
      simpa [refs, isQmark] using ih _ _ hd.2 _ he

theorem refs_meaning_dollar (is : List Item) (k : Nat) (q : Bool)
    (hd : is.any isQmark = false) (es : List Expr) (h : meaning k q is = some es) :
    refs es = dollarNumbers is := by
  induction is generalizing k q es with
  | nil => simp [meaning] at h; subst h; rfl
  | cons i is ih =>
    simp only [List.any_cons, Bool.or_eq_false_iff] at hd
    cases i <;> simp [meaning] at h
    case dollarN n =>
      obtain ⟨_, es', he, rfl⟩ := h
      simp [refs, dollarNumbers, ih _ _ hd.2 _ he]
    case qmark => simp [isQmark] at hd
    all_goals
      obtain ⟨es', he, rfl⟩ := h
      simp [refs, dollarNumbers, ih _ _ hd.2 _ he]

theorem meaning_some_of_no_mix (is : List Item) (k : Nat)
    (h : is.any isQmark = false) : ∃ es, meaning k false is = some es := by
  induction is generalizing k with
  | nil => exact ⟨[], rfl⟩
  | cons i is ih =>
    simp only [List.any_cons, Bool.or_eq_false_iff] at h
    obtain ⟨es, he⟩ := ih k h.2
    obtain ⟨es', he'⟩ := ih (k + 1) h.2
    cases i <;> simp_all [meaning, isQmark]

theorem meaning_some_of_no_dollar (is : List Item) (k : Nat) (q : Bool)
    (h : is.any isDollarN = false) : ∃ es, meaning k q is = some es := by
  induction is generalizing k q with
  | nil => exact ⟨[], rfl⟩
  | cons i is ih =>
    simp only [List.any_cons, Bool.or_eq_false_iff] at h
    obtain ⟨es, he⟩ := ih k q h.2
    obtain ⟨es', he'⟩ := ih (k + 1) true h.2
    cases i <;> simp_all [meaning, isDollarN]

theorem meaning_none_of_mix (c : List Item) (n : Nat) (b : List Item) (k : Nat) :
    meaning k true (b ++ .dollarN n :: c) = none := by
  rw [meaning_append]
  cases meaning k true b <;> simp [meaning]

/-- `parse_render` with the two cases separated. -/
theorem parse_render_some (L : GoLib) {is : List Item} (hw : WF is) {es : List Expr}
    (h : meaning 0 false is = some es) : ∃ es', parse L (render is) = .ok es' ∧ glue es' = glue es := by
  have := parse_render L is hw
  rw [h] at this; exact this

theorem parse_render_none (L : GoLib) {is : List Item} (hw : WF is)
    (h : meaning 0 false is = none) : parse L (render is) = .error .mixedBindvarStyles := by
  have := parse_render L is hw
  rw [h] at this; exact this

end Sqlf
