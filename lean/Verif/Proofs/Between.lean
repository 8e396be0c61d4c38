import Verif.Proofs.Again
import Verif.Proofs.Schedules
/-!
# Builds between the calls that make a query builder
-/

namespace Sqlf

open Spec

theorem SelectsOnly.from_ {b b' : QB} (h : SelectsOnly b b') (t : TableAliased) :
    SelectsOnly (b.from_ t) (b'.from_ t) := by
  obtain ⟨p, rfl⟩ := h
  refine ⟨p, ?_⟩
  unfold QB.from_
  split <;> rfl

theorem SelectsOnly.join {b b' b1 : QB} (h : SelectsOnly b b') {k : Str} {t : TableAliased} {on : Option Fragment}
    {opt : Bool} (h1 : b'.join k t on opt = .ok b1) : ∃ b0, b.join k t on opt = .ok b0 ∧ SelectsOnly b0 b1 := by
  obtain ⟨p, rfl⟩ := h
  unfold QB.join at h1 ⊢
  by_cases ht : t.name = []
  · rw [if_pos ht] at h1 ⊢
    cases h1
    exact ⟨_, rfl, p, rfl⟩
  · rw [if_neg ht] at h1 ⊢
    cases on with
    | none => cases h1
    | some on =>
      dsimp only at h1 ⊢
      by_cases hl : b.tables.length = 0
      · rw [if_pos hl] at h1 ⊢
        unfold QB.dictGet at h1 ⊢
        dsimp only at h1 ⊢
        cases hd : (b.tablesDict.find? fun q => q.1 = t.appliedName).map (·.2) with
        | some ptr => rw [hd] at h1; cases h1; exact ⟨_, rfl, p, rfl⟩
        | none => rw [hd] at h1; cases h1; exact ⟨_, rfl, p, rfl⟩
      · rw [if_neg hl] at h1 ⊢
        unfold QB.dictGet at h1 ⊢
        dsimp only at h1 ⊢
        cases hd : (b.tablesDict.find? fun q => q.1 = t.appliedName).map (·.2) with
        | some ptr => rw [hd] at h1; cases h1; exact ⟨_, rfl, p, rfl⟩
        | none => rw [hd] at h1; cases h1; exact ⟨_, rfl, p, rfl⟩

theorem SelectsOnly.apply {b b' b1 : QB} {c : Call} (h : SelectsOnly b b') (h1 : c.apply b' = .ok b1) :
    ∃ b0, c.apply b = .ok b0 ∧ SelectsOnly b0 b1 := by
  rcases call_cases c with ⟨t, rfl⟩ | ⟨⟨t, k, on, opt⟩, hj⟩ | ⟨h2, h3⟩
  · cases h1; exact ⟨_, rfl, h.from_ t⟩
  · rw [apply_join hj] at h1
    obtain ⟨b0, h4, h5⟩ := h.join h1
    exact ⟨b0, by rw [apply_join hj]; exact h4, h5⟩
  · obtain ⟨p, rfl⟩ := h
    cases c with
    | from_ t => exact absurd rfl (h2 t)
    | innerJoin _ _ => simp [joinOf] at h3
    | leftJoin _ _ => simp [joinOf] at h3
    | leftJoinOptional _ _ => simp [joinOf] at h3
    | rightJoin _ _ => simp [joinOf] at h3
    | fullJoin _ _ => simp [joinOf] at h3
    | crossJoin _ => simp [joinOf] at h3
    | distinct => cases h1; exact ⟨_, rfl, p, rfl⟩
    | select cs =>
      cases h1
      refine ⟨_, rfl, p, ?_⟩
      unfold QB.select
      split
      · rfl
      · dsimp only; rw [withFragments_withPrefix]
    | limit n =>
      cases h1
      refine ⟨_, rfl, p, ?_⟩
      unfold QB.setLimit
      split <;> rfl
    | offset n =>
      cases h1
      refine ⟨_, rfl, p, ?_⟩
      unfold QB.setOffset
      split <;> rfl
    | groupBy cs => cases h1; exact ⟨_, rfl, p, rfl⟩
    | orderBy c o => cases h1; exact ⟨_, rfl, p, rfl⟩
    | union bs => cases h1; exact ⟨_, rfl, p, rfl⟩
    | with_ n c ds => cases h1; exact ⟨_, rfl, p, rfl⟩
    | where_ f => cases h1; cases f <;> exact ⟨_, rfl, p, rfl⟩
    | where2 c op v => cases h1; exact ⟨_, rfl, p, rfl⟩
    | whereIn c l =>
      simp only [Call.apply, QB.whereIn, QB.whereInOp] at h1 ⊢
      split at h1 <;> cases h1
      exact ⟨_, rfl, p, rfl⟩
    | whereNotIn c l =>
      simp only [Call.apply, QB.whereNotIn, QB.whereInOp] at h1 ⊢
      split at h1 <;> cases h1
      exact ⟨_, rfl, p, rfl⟩
    | debug => cases h1; exact ⟨_, rfl, p, rfl⟩

theorem orderedBy_prefix {cs : List Call} {c : Call} : ∀ o ∈ orderedBy cs, o ∈ orderedBy (cs ++ [c]) := by
  induction cs with
  | nil => intro o ho; cases ho
  | cons d cs ih =>
    intro o ho
    cases d <;> simp only [orderedBy, List.cons_append, List.mem_cons] at ho ⊢ <;> first | exact ih o ho | skip
    rcases ho with h | h
    · exact .inl h
    · exact .inr (ih o h)

theorem distinctIn_prefix {cs : List Call} {c : Call} (h : distinctIn (cs ++ [c]) = false) : distinctIn cs = false := by
  induction cs with
  | nil => rfl
  | cons d cs ih => cases d <;> simp only [distinctIn, List.cons_append] at h ⊢ <;> first | exact ih h | cases h

theorem repeatable_prefix {cs : List Call} {c : Call} (h : Repeatable (cs ++ [c])) : Repeatable cs := by
  obtain ⟨h1, h2⟩ := h
  refine ⟨fun o h => h1 o (orderedBy_prefix o h), ?_⟩
  rcases h2 with h2 | h2
  · exact .inl (distinctIn_prefix h2)
  · right
    apply List.eq_nil_iff_forall_not_mem.2
    intro o h
    have := orderedBy_prefix (c := c) o h
    rw [h2] at this
    cases this

/-- Builds between the calls leave nothing behind but the word before the selected columns. -/
theorem Spec.Made.selectsOnly {L : GoLib} {cs : List Call} {b : QB} (h : Made L cs b) (hc : Repeatable cs) :
    ∃ b0, runCalls QB.new cs = .ok b0 ∧ SelectsOnly b0 b := by
  induction h with
  | new => exact ⟨_, rfl, .refl _⟩
  | call _ hc' ih =>
    obtain ⟨b0, h1, h2⟩ := ih (repeatable_prefix hc)
    obtain ⟨b1, h3, h4⟩ := h2.apply hc'
    refine ⟨b1, calls_append.2 ⟨b0, h1, ?_⟩, h4⟩
    unfold runCalls
    rw [h3]; rfl
  | build hm hr hb hr' ih =>
    obtain ⟨b0, h1, h2⟩ := ih hc
    have hst := steady_of_made (heap := [_]) (L := L) (fun b hb => by
      cases List.mem_singleton.1 hb; exact ⟨_, hm, hc⟩) _ (List.mem_singleton.2 rfl)
    obtain ⟨b', h3, h4⟩ := (hb.kept).each _ _ hr hst
    rw [hr'] at h3
    cases h3
    exact ⟨b0, h1, h2.trans h4⟩

end Sqlf
