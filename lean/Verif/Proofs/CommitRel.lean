import Verif.Proofs.SemRel
import Verif.Proofs.History
/-!
# Committing related values
-/

namespace Sqlf

open Spec

structure StoreR (R : Val → Val → Prop) (s s' : Store) : Prop where
  dollar : s.isDollar = s'.isDollar
  args : Pointwise R s.args s'.args
  dict : Pointwise (fun p q => R p.1 q.1 ∧ p.2 = q.2) s.dict s'.dict

theorem dictLookup_rel {R : Val → Val → Prop} (hR : Compat R) {d d' : List (Val × Nat)}
    (h : Pointwise (fun p q => R p.1 q.1 ∧ p.2 = q.2) d d') {v v' : Val} (hv : R v v') :
    dictLookup d v = dictLookup d' v' := by
  unfold dictLookup
  induction h with
  | nil => rfl
  | @cons a b as bs hr _ ih =>
    have he := hR.eq _ _ _ _ hr.1 hv
    simp only [List.find?_cons, he]
    cases b.1.goEq v' with
    | true => simp [hr.2]
    | false => exact ih

theorem commit_rel {R : Val → Val → Prop} {s s' : Store} (hs : StoreR R s s')
    (hR : s.isDollar = true → Compat R) {v v' : Val} (hv : R v v') {p : Str} {t : Store}
    (h : s.commit v = some (p, t)) : ∃ t', s'.commit v' = some (p, t') ∧ StoreR R t t' := by
  unfold Store.commit at h ⊢
  rw [← hs.dollar]
  cases hd : s.isDollar with
  | false =>
    rw [hd] at h
    simp at h
    obtain ⟨rfl, rfl⟩ := h
    exact ⟨_, rfl, rfl, hs.args.append (.cons hv .nil), hs.dict⟩
  | true =>
    have hC := hR hd
    rw [hd] at h
    simp only [if_true] at h ⊢
    rw [← hC.hash _ _ hv, ← dictLookup_rel hC hs.dict hv]
    cases hh : v.hashable with
    | false => simp [hh] at h
    | true =>
      simp only [hh, Bool.not_true, Bool.false_eq_true, if_false] at h ⊢
      cases hl : dictLookup s.dict v with
      | some i =>
        simp only [hl, Option.some.injEq, Prod.mk.injEq] at h ⊢
        obtain ⟨rfl, rfl⟩ := h
        exact ⟨s', ⟨rfl, rfl⟩, hs⟩
      | none =>
        simp only [hl, Option.some.injEq, Prod.mk.injEq] at h ⊢
        obtain ⟨rfl, rfl⟩ := h
        rw [← hs.args.length]
        exact ⟨_, ⟨rfl, rfl⟩, rfl, hs.args.append (.cons hv .nil),
          .cons ⟨hv, rfl⟩ hs.dict⟩

theorem commitAll_rel {R : Val → Val → Prop} {s s' : Store} (hs : StoreR R s s')
    (hR : s.isDollar = true → Compat R) {vs vs' : List Val} (hv : Pointwise R vs vs') {ps : List Str}
    {t : Store} (h : commitAll s vs = some (ps, t)) :
    ∃ t', commitAll s' vs' = some (ps, t') ∧ StoreR R t t' := by
  induction hv generalizing s s' ps t with
  | nil =>
    simp only [commitAll, Option.some.injEq, Prod.mk.injEq] at h
    obtain ⟨rfl, rfl⟩ := h
    exact ⟨s', rfl, hs⟩
  | cons hr _ ih =>
    simp only [commitAll] at h ⊢
    split at h
    · simp at h
    · rename_i p s1 h1
      obtain ⟨s1', h1', hs1⟩ := commit_rel hs hR hr h1
      rw [h1']
      split at h
      · simp at h
      · rename_i ps1 s2 h2
        simp only [Option.some.injEq, Prod.mk.injEq] at h
        obtain ⟨rfl, rfl⟩ := h
        obtain ⟨t', h3, h4⟩ := ih hs1 (by rw [(Store.commit_prefix h1).2]; exact hR) h2
        exact ⟨t', by simp [h3], h4⟩

theorem storeR_new (R : Val → Val → Prop) (style : Style) :
    StoreR R (Store.new style) (Store.new style) := ⟨rfl, .nil, .nil⟩

theorem renderDoc_shift (ps qs : List Str) (d : Doc) :
    renderDoc (ps ++ qs) (shiftDoc ps.length d) = renderDoc qs d := by
  induction d with
  | nil => rfl
  | cons a d ih =>
    cases a with
    | byte b =>
      show b :: renderDoc (ps ++ qs) (shiftDoc ps.length d) = b :: renderDoc qs d
      rw [ih]
    | bind k =>
      show (ps ++ qs).getD (ps.length + k) [] ++ renderDoc (ps ++ qs) (shiftDoc ps.length d) = _
      rw [ih]
      simp only [renderDoc, List.getD_eq_getElem?_getD, List.getElem?_append]
      rw [if_neg (by omega), Nat.add_sub_cancel_left]

end Sqlf
