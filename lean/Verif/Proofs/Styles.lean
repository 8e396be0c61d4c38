import Verif.Spec.Styles
import Verif.Proofs.Lockstep
import Verif.Proofs.SimAt
/-!
# A Question build and a Dollar build in lockstep
-/

namespace Sqlf

open Spec

/-! ## Texts -/

private theorem marks_q (ns : List Nat) : Marks (ns.map fun _ => lit "?") := by
  intro p hp
  obtain ⟨_, -, rfl⟩ := List.mem_map.1 hp
  exact mark_question

private theorem marks_d (ns : List Nat) : Marks (ns.map dollarMark) := by
  intro p hp
  obtain ⟨n, -, rfl⟩ := List.mem_map.1 hp
  exact mark_dollar n

theorem sameButMarks_iff {ns : List Nat} {s s' : Str} : SameButMarks ns s s' ↔
    ∃ d, RD (ns.map fun _ => lit "?") s d ∧ RD (ns.map dollarMark) s' d := by
  constructor
  · rintro ⟨d, h1, h2, h3⟩
    exact ⟨d, ⟨h2, fun k hk => by simpa using h1 k hk⟩, ⟨h3, fun k hk => by simpa using h1 k hk⟩⟩
  · rintro ⟨d, h1, h2⟩
    exact ⟨d, fun k hk => by simpa using h1.2 k hk, h1.1, h2.1⟩

theorem Spec.SameButMarks.mono {ns ns' : List Nat} {s s' : Str} (h : SameButMarks ns s s') (hn : ns <+: ns') :
    SameButMarks ns' s s' := by
  obtain ⟨d, h1, h2⟩ := sameButMarks_iff.1 h
  exact sameButMarks_iff.2 ⟨d, h1.mono (hn.map _), h2.mono (hn.map _)⟩

theorem sameButMarks_str (ns : List Nat) (s : Str) : SameButMarks ns s s :=
  sameButMarks_iff.2 ⟨_, rd_str _ s, rd_str _ s⟩

theorem Spec.SameButMarks.append {ns : List Nat} {s s' t t' : Str} (h : SameButMarks ns s s') (h' : SameButMarks ns t t') :
    SameButMarks ns (s ++ t) (s' ++ t') := by
  obtain ⟨d, h1, h2⟩ := sameButMarks_iff.1 h
  obtain ⟨e, h3, h4⟩ := sameButMarks_iff.1 h'
  exact sameButMarks_iff.2 ⟨_, h1.append h3, h2.append h4⟩

theorem Spec.SameButMarks.nil_iff {ns : List Nat} {s s' : Str} (h : SameButMarks ns s s') : s = [] ↔ s' = [] := by
  obtain ⟨d, h1, h2⟩ := sameButMarks_iff.1 h
  rw [h1.nil_iff (marks_q ns), h2.nil_iff (marks_d ns)]

theorem Spec.SameButMarks.trim {ns : List Nat} {s s' : Str} (h : SameButMarks ns s s') :
    SameButMarks ns (trimSpace s) (trimSpace s') := by
  obtain ⟨d, h1, h2⟩ := sameButMarks_iff.1 h
  exact sameButMarks_iff.2 ⟨_, h1.trim (marks_q ns), h2.trim (marks_d ns)⟩

theorem Spec.SameButMarks.ite {ns : List Nat} {s s' t t' u u' : Str} (h : SameButMarks ns s s')
    (ht : SameButMarks ns t t') (hu : SameButMarks ns u u') :
    SameButMarks ns (if s = [] then t else u) (if s' = [] then t' else u') := by
  by_cases hs : s = []
  · rw [if_pos hs, if_pos (h.nil_iff.1 hs)]; exact ht
  · rw [if_neg hs, if_neg fun e => hs (h.nil_iff.2 e)]; exact hu

abbrev TextsAlike (ns : List Nat) : List Str → List Str → Prop := Pointwise (SameButMarks ns)

theorem textsAlike_mono {ns ns' : List Nat} {l l' : List Str} (h : TextsAlike ns l l') (hn : ns <+: ns') :
    TextsAlike ns' l l' := Pointwise.mono h fun _ _ h => SameButMarks.mono h hn

theorem strJoin_alike {ns : List Nat} {l l' : List Str} (h : TextsAlike ns l l') (sep : Str) :
    SameButMarks ns (strJoin sep l) (strJoin sep l') := by
  induction h with
  | nil => exact sameButMarks_str _ _
  | cons h hs ih =>
    cases hs with
    | nil => exact h
    | cons h' hs' => exact (h.append (sameButMarks_str _ sep)).append ih

theorem nonEmpty_alike {ns : List Nat} {s s' : Str} (h : SameButMarks ns s s') : TextsAlike ns (nonEmpty s) (nonEmpty s') := by
  unfold nonEmpty
  by_cases hs : s = []
  · rw [if_pos hs, if_pos (h.nil_iff.1 hs)]; exact .nil
  · rw [if_neg hs, if_neg fun e => hs (h.nil_iff.2 e)]; exact .cons h .nil

theorem decorate_alike {ns : List Nat} {p p' q q' s s' : Str} (hp : SameButMarks ns p p') (hq : SameButMarks ns q q')
    (h : SameButMarks ns s s') : SameButMarks ns (decorate p q s) (decorate p' q' s') := by
  have hne : ∀ {p p' t t' : Str}, SameButMarks ns p p' → SameButMarks ns t t' →
      SameButMarks ns (if p ≠ [] then t else []) (if p' ≠ [] then t' else []) := by
    intro p p' t t' hp ht
    by_cases h : p = []
    · rw [if_neg (by simp [h]), if_neg (by simp [hp.nil_iff.1 h])]; exact sameButMarks_str _ _
    · rw [if_pos h, if_pos fun e => h (hp.nil_iff.2 e)]; exact ht
  unfold decorate
  exact h.trim.ite (sameButMarks_str _ _)
    (((hne hp (hp.append (sameButMarks_str _ _))).append h.trim).append (hne hq ((sameButMarks_str _ _).append hq)))

theorem joinAppend_alike {ns : List Nat} (sep : Str) {a a' s s' : Str} (ha : SameButMarks ns a a') (h : SameButMarks ns s s') :
    SameButMarks ns (joinAppend sep a s) (joinAppend sep a' s') := by
  unfold joinAppend
  by_cases hs : s = []
  · rw [if_neg (by simp [hs]), if_neg (by simp [h.nil_iff.1 hs])]; exact ha
  · rw [if_pos hs, if_pos fun e => hs (h.nil_iff.2 e)]
    refine SameButMarks.append ?_ h
    by_cases hx : a = []
    · rw [if_neg (by simp [hx]), if_neg (by simp [ha.nil_iff.1 hx])]; exact ha
    · rw [if_pos hx, if_pos fun e => hx (ha.nil_iff.2 e)]; exact ha.append (sameButMarks_str _ _)

/-! ## The relation grows with the placeholders -/

theorem styleFreeL_pointwise {ns : List Nat} {bs cs : List Builder} :
    StyleFreeL ns bs cs ↔ Pointwise (StyleFree ns) bs cs := by
  induction bs generalizing cs with
  | nil => cases cs with
    | nil => simp [StyleFreeL]; exact .nil
    | cons c cs => simp [StyleFreeL]; intro h; cases h
  | cons b bs ih => cases cs with
    | nil => simp [StyleFreeL]; intro h; cases h
    | cons c cs =>
      rw [StyleFreeL, ih]
      exact ⟨fun h => .cons h.1 h.2, fun h => by cases h with | cons h1 h2 => exact ⟨h1, h2⟩⟩

mutual
theorem styleFree_mono {ns ns' : List Nat} (hn : ns <+: ns') : ∀ b c, StyleFree ns b c → StyleFree ns' b c
  | .frag f, c, h => by
    cases c <;> simp only [StyleFree] at h ⊢
    exact styleFreeF_mono hn _ _ h
  | .column _ f, c, h => by
    cases c <;> simp only [StyleFree] at h ⊢
    exact ⟨h.1, styleFreeF_mono hn _ _ h.2⟩
  | .table t, c, h => by cases c <;> simp only [StyleFree] at h ⊢; exact h
  | .aliased n a, c, h => by cases c <;> simp only [StyleFree] at h ⊢; exact h
  | .nil, c, h => by cases c <;> simp only [StyleFree] at h ⊢
  | .nilFrag, c, h => by cases c <;> simp only [StyleFree] at h ⊢
  | .nilColumn, c, h => by cases c <;> simp only [StyleFree] at h ⊢
  | .columnNilFrag _, c, h => by cases c <;> simp only [StyleFree] at h ⊢; exact h
  | .nilQb, c, h => by cases c <;> simp only [StyleFree] at h ⊢
  | .qb r, c, h => by cases c <;> simp only [StyleFree] at h ⊢; exact h
  | .custom p, c, h => by
    cases c <;> simp only [StyleFree] at h ⊢
    exact styleFreeCode_mono hn _ _ h
termination_by structural b => b
theorem styleFreeF_mono {ns ns' : List Nat} (hn : ns <+: ns') : ∀ f g, StyleFreeF ns f g → StyleFreeF ns' f g
  | .mk raw args frags pre suf, .mk raw' args' frags' pre' suf', h => by
    rw [StyleFreeF] at h ⊢
    exact ⟨h.1, h.2.1, h.2.2.1, styleFreeL_mono hn _ _ h.2.2.2.1, h.2.2.2.2.1.mono hn, h.2.2.2.2.2.mono hn⟩
termination_by structural b => b
theorem styleFreeL_mono {ns ns' : List Nat} (hn : ns <+: ns') : ∀ bs cs, StyleFreeL ns bs cs → StyleFreeL ns' bs cs
  | [], [], _ => by simp [StyleFreeL]
  | [], _ :: _, h => by simp [StyleFreeL] at h
  | _ :: _, [], h => by simp [StyleFreeL] at h
  | b :: bs, c :: cs, h => by
    rw [StyleFreeL] at h ⊢
    exact ⟨styleFree_mono hn _ _ h.1, styleFreeL_mono hn _ _ h.2⟩
termination_by structural b => b
theorem styleFreeCode_mono {ns ns' : List Nat} (hn : ns <+: ns') : ∀ p q, StyleFreeCode ns p q → StyleFreeCode ns' p q
  | .ret s, q, h => by cases q <;> simp only [StyleFreeCode] at h ⊢; exact h.mono hn
  | .fail e, q, h => by cases q <;> simp only [StyleFreeCode] at h ⊢; exact h
  | .panic m b, q, h => by cases q <;> simp only [StyleFreeCode] at h ⊢; exact h
  | .commit v k, q, h => by
    cases q <;> simp only [StyleFreeCode] at h ⊢
    exact ⟨h.1, h.2.1, fun ms hm => h.2.2 ms (hn.trans hm)⟩
  | .args k, q, h => by
    cases q <;> simp only [StyleFreeCode] at h ⊢
    exact fun vs vs' => styleFreeCode_mono hn _ _ (h vs vs')
  | .build b k, q, h => by
    cases q <;> simp only [StyleFreeCode] at h ⊢
    exact ⟨styleFree_mono hn _ _ h.1, fun ms hm => h.2 ms (hn.trans hm)⟩
  | .buildWith fm b k, q, h => by
    cases q <;> simp only [StyleFreeCode] at h ⊢
    exact ⟨styleFreeFuncs_mono hn _ _ h.1, styleFree_mono hn _ _ h.2.1, fun ms hm => h.2.2 ms (hn.trans hm)⟩
  | .query style b k, q, h => by
    cases q <;> simp only [StyleFreeCode] at h ⊢
    exact ⟨h.1, styleFree_mono hn _ _ h.2.1, fun ms hm => h.2.2 ms (hn.trans hm)⟩
termination_by structural b => b
theorem styleFreeFunc_mono {ns ns' : List Nat} (hn : ns <+: ns') : ∀ f g, StyleFreeFunc ns f g → StyleFreeFunc ns' f g
  | .notFunc, g, h => by cases g <;> simp only [StyleFreeFunc] at h ⊢
  | .func _ _ _ body, g, h => by
    cases g <;> simp only [StyleFreeFunc] at h ⊢
    exact ⟨h.1, h.2.1, h.2.2.1, styleFreeBody_mono hn _ _ h.2.2.2⟩
termination_by structural b => b
theorem styleFreeBody_mono {ns ns' : List Nat} (hn : ns <+: ns') : ∀ f g, StyleFreeBody ns f g → StyleFreeBody ns' f g
  | .builtin b, g, h => by cases g <;> simp only [StyleFreeBody] at h ⊢; exact h
  | .custom p, g, h => by
    cases g <;> simp only [StyleFreeBody] at h ⊢
    exact fun vs => styleFreeCode_mono hn _ _ (h vs)
termination_by structural b => b
theorem styleFreeEntry_mono {ns ns' : List Nat} (hn : ns <+: ns') : ∀ f g, StyleFreeEntry ns f g → StyleFreeEntry ns' f g
  | (n, f), (n', f'), h => by
    rw [StyleFreeEntry] at h ⊢
    exact ⟨h.1, styleFreeFunc_mono hn _ _ h.2⟩
termination_by structural b => b
theorem styleFreeFuncs_mono {ns ns' : List Nat} (hn : ns <+: ns') : ∀ f g, StyleFreeFuncs ns f g → StyleFreeFuncs ns' f g
  | [], [], _ => by simp [StyleFreeFuncs]
  | [], _ :: _, h => by simp [StyleFreeFuncs] at h
  | _ :: _, [], h => by simp [StyleFreeFuncs] at h
  | b :: bs, c :: cs, h => by
    rw [StyleFreeFuncs] at h ⊢
    exact ⟨styleFreeEntry_mono hn _ _ h.1, styleFreeFuncs_mono hn _ _ h.2⟩
termination_by structural b => b
end

end Sqlf
