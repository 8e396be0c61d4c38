import Verif.Props.Funcs
import Verif.Proofs.Refused
import Verif.KernelRfl
/-!
# C117: what a refused function map leaves
-/

namespace Sqlf.Props

open Spec

/-- **C117** The error is that of `contextWithFuncs`, with which all other theorems are stated; without an error the
context is its context. -/
theorem C117_both_results (L : GoLib) (c : Ctx) (fm : FuncMap) :
    (∀ c', contextWithFuncsBoth L c fm = (c', none) ↔ contextWithFuncs L c fm = .ok c') ∧
    (∀ e, (∃ c', contextWithFuncsBoth L c fm = (c', some e)) ↔ contextWithFuncs L c fm = .error e) := by
  unfold contextWithFuncsBoth contextWithFuncs
  dsimp only
  match hf : fillFuncs L [] fm with
  | (m, none) =>
    rw [(fillFuncs_none L fm [] m).1 hf]
    simp
  | (m, some e) =>
    rw [(fillFuncs_some L fm [] e).1 ⟨m, hf⟩]
    simp

/-- **C117** If a map is refused, the error names one of its entries that is not allowed, and the context returned with
the error is the one that the entries visited before it give. -/
theorem C117_entries_before_the_refused_partial (L : GoLib) (c c' : Ctx) (fm : FuncMap) (h : IsMap fm) (e : Err)
    (hc : contextWithFuncsBoth L c fm = (c', some e)) :
    ∃ k name fv, fm[k]? = some (name, fv) ∧ ¬ AllowedEntry L name fv ∧ (∃ why, e = .badFunc name why) ∧
      contextWithFuncs L c (fm.take k) = .ok c' := by
  unfold contextWithFuncsBoth at hc
  dsimp only at hc
  match hf : fillFuncs L [] fm, hc with
  | (m, some e'), hc =>
    cases hc
    obtain ⟨k, name, fv, h1, h2, h3, h4⟩ := fillFuncs_prefix L fm [] m e hf
    have ht : contextWithFuncs L c (fm.take k) = .ok { c with funcs := m :: c.funcs } := by
      unfold contextWithFuncs; rw [h3]
    refine ⟨k, name, fv, h1, fun ha => ?_, h2, ht⟩
    have hall := (C39_function_maps_validated L c (fm.take k) (isMap_take h k)).1 ⟨_, ht⟩
    obtain ⟨c'', h5⟩ := (C39_function_maps_validated L c (fm.take (k + 1)) (isMap_take h (k + 1))).2 (by
      intro n v hm
      rw [List.take_add_one, h1] at hm
      rcases List.mem_append.1 hm with hm | hm
      · exact hall n v hm
      · simp at hm
        obtain ⟨rfl, rfl⟩ := hm
        exact ha)
    unfold contextWithFuncs at h5
    split at h5
    · cases h5
    · rename_i m' hm'
      exact h4 m' hm'
  | (m, none), hc => cases hc

/-- **C117** (partial: functions of the map may have been added, see `C117_order_counterexample`)  In the context returned
with the error each name means what it meant before, or an allowed function of the map under this name; names that are
not in the map, and those of entries that are not allowed, mean what they meant before. -/
theorem C117_only_allowed_functions_partial (L : GoLib) (c c' : Ctx) (fm : FuncMap) (h : IsMap fm) (e : Err)
    (hc : contextWithFuncsBoth L c fm = (c', some e)) (name : Str) :
    (c'.fn name = c.fn name ∨ ∃ ins v outs body, (name, FuncVal.func ins v outs body) ∈ fm ∧
      AllowedEntry L name (.func ins v outs body) ∧ c'.fn name = some ⟨name, ins, v, outs, body⟩) ∧
    (name ∉ fm.map (·.1) → c'.fn name = c.fn name) ∧
    ∀ fv, (name, fv) ∈ fm → ¬ AllowedEntry L name fv → c'.fn name = c.fn name := by
  obtain ⟨k, _, _, -, -, -, ht⟩ := C117_entries_before_the_refused_partial L c c' fm h e hc
  have hm := isMap_take h k
  have hall := (C39_function_maps_validated L c (fm.take k) hm).1 ⟨_, ht⟩
  have hw := C38_nearest_definition_wins L c c' (fm.take k) hm ht name
  have hsub : ∀ p ∈ fm.take k, p ∈ fm := fun p hp => List.mem_of_mem_take hp
  by_cases hn : name ∈ (fm.take k).map (·.1)
  · obtain ⟨⟨n, fv⟩, hp, rfl⟩ := List.mem_map.1 hn
    have ha := hall n fv hp
    refine ⟨.inr ?_, fun hno => absurd (List.mem_map_of_mem (f := (·.1)) (hsub _ hp)) hno, fun fv' hp' hna => ?_⟩
    · cases fv with
      | notFunc => exact ha.elim
      | func ins v outs body => exact ⟨ins, v, outs, body, hsub _ hp, ha, hw.1 _ _ _ _ hp⟩
    · have : fv' = fv := by
        have hq := hsub _ hp
        unfold IsMap at h
        clear hw hall hm hsub ht hc hn hp ha hna
        induction fm with
        | nil => cases hq
        | cons p fm ih =>
          rw [List.map_cons, List.nodup_cons] at h
          rcases List.mem_cons.1 hp' with h1 | h1 <;> rcases List.mem_cons.1 hq with h2 | h2
          · rw [← h2] at h1; exact (Prod.mk.inj h1).2
          · exact absurd (by rw [← h1]; exact List.mem_map_of_mem (f := (·.1)) h2) h.1
          · exact absurd (by rw [← h2]; exact List.mem_map_of_mem (f := (·.1)) h1) h.1
          · exact ih h.2 h1 h2
      exact absurd (this ▸ ha) hna
  · exact ⟨.inl (hw.2 hn), fun _ => hw.2 hn, fun _ _ _ => hw.2 hn⟩

/-- A function without parameters and results. -/
def okFunc : FuncVal := .func [] false [] (.custom fun _ => .ret [])

/-- The full C117 fails: of a map with an allowed function and a value that is no function, the allowed one has been
added when it is visited first, and not when it is visited last.  (Go visits the entries of a map in any order.) -/
theorem C117_order_counterexample (L : GoLib) (c : Ctx) (hc : c.fn (lit "a") = none) :
    ∃ c1 c2 e, contextWithFuncsBoth L c [(lit "a", okFunc), (lit "b", .notFunc)] = (c1, some e) ∧
      contextWithFuncsBoth L c [(lit "b", .notFunc), (lit "a", okFunc)] = (c2, some e) ∧
      (c1.fn (lit "a")).isSome = true ∧ c2.fn (lit "a") = none := by
  have hg : goodName L (lit "a") = true := by kernel_rfl
  have hg' : goodName L (lit "b") = true := by kernel_rfl
  have hf : goodFunc ⟨lit "a", [], false, [], .custom fun _ => .ret []⟩ = none := by kernel_rfl
  refine ⟨{ c with funcs := [(lit "a", ⟨lit "a", [], false, [], .custom fun _ => .ret []⟩)] :: c.funcs },
    { c with funcs := [] :: c.funcs }, .badFunc (lit "b") .notFunc, ?_, ?_, ?_, ?_⟩
  · simp [contextWithFuncsBoth, fillFuncs, hg, hg', okFunc, lookupFn, hf]
  · simp [contextWithFuncsBoth, fillFuncs, hg']
  · simp [Ctx.fn, lookupFn]
  · simpa [Ctx.fn, lookupFn] using hc

/-- The hypotheses of the theorems are met by this map. -/
example (L : GoLib) : IsMap [(lit "a", okFunc), (lit "b", .notFunc)] ∧ AllowedEntry L (lit "a") okFunc ∧
    ¬ AllowedEntry L (lit "b") .notFunc ∧
    ∃ c' e, contextWithFuncsBoth L newEmptyContext [(lit "a", okFunc), (lit "b", .notFunc)] = (c', some e) := by
  obtain ⟨c1, _, e, h, -⟩ := C117_order_counterexample L newEmptyContext rfl
  refine ⟨by unfold IsMap; decide, ?_, fun h => h, c1, e, h⟩
  refine ⟨⟨by decide, fun r hr => ?_⟩, .inl rfl, fun i t ht => by simp at ht⟩
  have : runes (lit "a") = [97] := by decide
  rw [this] at hr
  cases List.mem_singleton.1 hr
  right; simp [isLetterRune]

end Sqlf.Props
