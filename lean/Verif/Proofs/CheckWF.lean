import Verif.Spec.Template
/-!
# A test for well-formed templates, for examples
-/

namespace Sqlf

open Spec

def Spec.Lit.check : Lit → Bool
  | .num n => n < 10 ^ 15
  | .str s => !s.contains 0
  | _ => true

def nameCheck (s : Str) : Bool := !s.isEmpty && s.all nameByte

def Spec.Item.check : Item → Bool
  | .text s => s.all plainByte
  | .quoted q s => (q == 0x27 && s == escapeQuotes (unescapeQuotes s) && !(unescapeQuotes s).contains 0) ||
      ((q == 0x22 || q == 0x60) && !s.contains q && !s.contains 0)
  | .esc b => b == 0x24 || b == 0x3F
  | .qmark => true
  | .dollarN n => 1 ≤ n && n < 2 ^ 63
  | .callN name n => nameCheck name && n < 10 ^ 15
  | .call name args => nameCheck name && args.all fun a => a.2.check
  | .func name => nameCheck name

def followsCheck : Item → Str → Bool
  | .quoted q _, t => !(q == 0x27 && t.head? == some 0x27)
  | .qmark, t => t.head?.all fun b => b ≠ 0x3F && !(0x31 ≤ b && b ≤ 0x39)
  | .dollarN _, t => t.head?.all fun b => !isDigitB b
  | .callN _ _, t => t.head?.all fun b => !isDigitB b
  | .func _, t => t.head?.all fun b => !nameByte b && !isDigitB b && b ≠ 0x28 && b ≠ 0
  | _, _ => true

def followsItemCheck : Item → List Item → Bool
  | .text _, .text _ :: _ => false
  | .func _, .qmark :: _ => false
  | .func _, .dollarN _ :: _ => false
  | .func _, .callN _ _ :: _ => false
  | .func _, .call _ _ :: _ => false
  | .func _, .func _ :: _ => false
  | _, _ => true

def wfCheck : List Item → Bool
  | [] => true
  | i :: is => i.check && i != .text [] && followsCheck i (render is) && followsItemCheck i is && wfCheck is

theorem lit_check {a : Lit} (h : a.check = true) : a.WF := by
  cases a <;> simp_all [Lit.check, Lit.WF]

theorem name_check {s : Str} (h : nameCheck s = true) : isName s := by
  simp_all [nameCheck, isName]

theorem item_check {i : Item} (h : i.check = true) : i.WF := by
  cases i with
  | text s => simp_all [Item.check, Item.WF]
  | quoted q s =>
    simp only [Item.check, Bool.or_eq_true, Bool.and_eq_true, beq_iff_eq, Bool.not_eq_true',
      List.contains_eq_mem, decide_eq_false_iff_not] at h
    rcases h with ⟨⟨h1, h2⟩, h3⟩ | ⟨⟨h1, h2⟩, h3⟩
    · exact Or.inl ⟨h1, _, h2, h3⟩
    · exact Or.inr ⟨h1, h2, h3⟩
  | esc b => simp_all [Item.check, Item.WF]
  | qmark => trivial
  | dollarN n => simp_all [Item.check, Item.WF]
  | callN name n =>
    simp only [Item.check, Bool.and_eq_true, decide_eq_true_eq] at h
    exact ⟨name_check h.1, h.2⟩
  | call name args =>
    simp only [Item.check, Bool.and_eq_true, List.all_eq_true] at h
    exact ⟨name_check h.1, fun a ha => lit_check (h.2 a ha)⟩
  | func name => exact name_check h

theorem follows_check {i : Item} {t : Str} (h : followsCheck i t = true) : Follows i t := by
  cases i <;> simp only [Follows] <;> (try trivial)
  · intro hq ht; simp [followsCheck, hq, ht] at h
  all_goals
    intro b hb
    simp_all [followsCheck]
    try (intro h2; exact h.2.resolve_left (UInt8.not_lt.mpr h2))

theorem followsItem_check {i : Item} {is : List Item} (h : followsItemCheck i is = true) :
    FollowsItem i is := by
  cases i <;> try trivial
  all_goals
    cases is with
    | nil => trivial
    | cons j is => cases j <;> first | trivial | (simp [followsItemCheck] at h)

theorem wf_check {is : List Item} (h : wfCheck is = true) : WF is := by
  induction is with
  | nil => trivial
  | cons i is ih =>
    simp only [wfCheck, Bool.and_eq_true, bne_iff_ne] at h
    obtain ⟨⟨⟨⟨h1, h2⟩, h3⟩, h4⟩, h5⟩ := h
    exact ⟨item_check h1, h2, follows_check h3, followsItem_check h4, ih h5⟩

end Sqlf
