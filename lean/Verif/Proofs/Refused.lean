import Verif.Model.Refused
import Verif.Spec.Funcs
/-!
# Lemmas on refused function maps
-/

namespace Sqlf

open Spec

theorem fillFuncs_none (L : GoLib) : ∀ (fm : FuncMap) (out m : List (Str × FuncInfo)),
    fillFuncs L out fm = (m, none) ↔ addValueFuncs L out fm = .ok m
  | [], out, m => by simp [fillFuncs, addValueFuncs]
  | (name, fv) :: rest, out, m => by
    unfold fillFuncs addValueFuncs
    split
    · simp
    · split
      · simp
      · split
        · simp
        · dsimp only
          split
          · rename_i hg; simp [hg]
          · rename_i hg; rw [hg]; exact fillFuncs_none L rest _ m

theorem fillFuncs_some (L : GoLib) : ∀ (fm : FuncMap) (out : List (Str × FuncInfo)) (e : Err),
    (∃ m, fillFuncs L out fm = (m, some e)) ↔ addValueFuncs L out fm = .error e
  | [], out, e => by simp [fillFuncs, addValueFuncs]
  | (name, fv) :: rest, out, e => by
    unfold fillFuncs addValueFuncs
    split
    · simp
    · split
      · simp
      · split
        · simp
        · dsimp only
          split
          · rename_i hg; simp [hg]
          · rename_i hg; rw [hg]; exact fillFuncs_some L rest _ e

/-- The entries before the refused one are added. -/
theorem fillFuncs_prefix (L : GoLib) : ∀ (fm : FuncMap) (out m : List (Str × FuncInfo)) (e : Err),
    fillFuncs L out fm = (m, some e) → ∃ k name fv, fm[k]? = some (name, fv) ∧ (∃ fe, e = .badFunc name fe) ∧
      addValueFuncs L out (fm.take k) = .ok m ∧ ∀ m', addValueFuncs L out (fm.take (k + 1)) ≠ .ok m'
  | [], out, m, e, h => by simp [fillFuncs] at h
  | (name, fv) :: rest, out, m, e, h => by
    by_cases hn : goodName L name = true
    · cases fv with
      | notFunc =>
        simp [fillFuncs, hn] at h
        obtain ⟨rfl, rfl⟩ := h
        exact ⟨0, name, _, rfl, ⟨_, rfl⟩, rfl, by simp [addValueFuncs, hn]⟩
      | func ins v outs body =>
        by_cases hl : (lookupFn out name).isSome = true
        · simp [fillFuncs, hn, hl] at h
          obtain ⟨rfl, rfl⟩ := h
          exact ⟨0, name, _, rfl, ⟨_, rfl⟩, rfl, by simp [addValueFuncs, hn, hl]⟩
        · cases hg : goodFunc ⟨name, ins, v, outs, body⟩ with
          | some fe =>
            simp [fillFuncs, hn, hl, hg] at h
            obtain ⟨rfl, rfl⟩ := h
            exact ⟨0, name, _, rfl, ⟨_, rfl⟩, rfl, by simp [addValueFuncs, hn, hl, hg]⟩
          | none =>
            simp [fillFuncs, hn, hl, hg] at h
            obtain ⟨k, n', fv', h1, h2, h3, h4⟩ := fillFuncs_prefix L rest _ m e h
            exact ⟨k + 1, n', fv', h1, h2, by simpa [addValueFuncs, hn, hl, hg] using h3,
              by simpa [addValueFuncs, hn, hl, hg] using h4⟩
    · simp [fillFuncs, hn] at h
      obtain ⟨rfl, rfl⟩ := h
      exact ⟨0, name, _, rfl, ⟨_, rfl⟩, rfl, by simp [addValueFuncs, hn]⟩

theorem isMap_take {fm : FuncMap} (h : IsMap fm) (k : Nat) : IsMap (fm.take k) := by
  unfold IsMap at *
  exact List.Pairwise.sublist (List.Sublist.map _ (List.take_sublist k fm)) h

end Sqlf
