import Verif.Proofs.UsedFlags
import Verif.Proofs.Fuel
import Verif.Spec.Outcome
/-!
# C111: `Used` of properties
-/

namespace Sqlf.Props

/-- **C111** `Used` says exactly which properties have been asked for: after any calls of the properties of a list
that was made by `NewFragmentProperties` or `NewArgsProperties`, `Used` of the property at `k` is true iff one of the
calls was `Build` with its index, its `BuildFragment` or its `ReportUsed`, whatever the calls returned. -/
theorem C111_used_iff_asked (L : GoLib) (n : Nat) (bs : List Builder) (s : St) (ops : List MarkOp) (k : Nat)
    (hk : k < bs.length) :
    ∃ b, (MarkOp.used k).run L n (runMarks L n (newFlagged bs) s ops).2.1 (runMarks L n (newFlagged bs) s ops).2.2 =
        (.isUsed b, (runMarks L n (newFlagged bs) s ops).2) ∧
      (b = true ↔ ∃ op ∈ ops, op.AsksFor k) := by
  obtain ⟨b, hb, h⟩ := runMarks_get L n ops (newFlagged bs) s k
  refine ⟨b, ?_, hb⟩
  rw [newFlagged_eq, List.getElem?_map, List.getElem?_eq_getElem hk] at h
  simp only [Option.map_some, Bool.false_or] at h
  simp only [MarkOp.run, newFlagged_eq, h]

/-- **C111** `Build` of an index in range builds the value at this index; any other index is an invalid index, and
nothing happens. -/
theorem C111_build_is_of_the_value (L : GoLib) (n : Nat) (bs : List Builder) (s : St) (ops : List MarkOp) (ctx : Ctx)
    (i : Int) :
    (∀ (k : Nat) (hk : k < bs.length), i = (k : Int) + 1 →
      ∃ ps', (MarkOp.build ctx i).run L n (runMarks L n (newFlagged bs) s ops).2.1 (runMarks L n (newFlagged bs) s ops).2.2 =
        (.built (run L n ctx (.build bs[k]) (runMarks L n (newFlagged bs) s ops).2.2).1, ps',
          (run L n ctx (.build bs[k]) (runMarks L n (newFlagged bs) s ops).2.2).2)) ∧
    (i < 1 ∨ i > bs.length →
      (MarkOp.build ctx i).run L n (runMarks L n (newFlagged bs) s ops).2.1 (runMarks L n (newFlagged bs) s ops).2.2 =
        (.built (.err (.invalidIndex i)), (runMarks L n (newFlagged bs) s ops).2)) := by
  have hlen : (runMarks L n (newFlagged bs) s ops).2.1.length = bs.length := by
    have h : (runMarks L n (newFlagged bs) s ops).2.1.map (·.1) = bs := by
      refine List.ext_getElem? fun j => ?_
      obtain ⟨b, -, h⟩ := runMarks_get L n ops (newFlagged bs) s j
      rw [List.getElem?_map, h, newFlagged_eq]
      simp [Function.comp_def]
    simpa using congrArg List.length h
  constructor
  · intro k hk hi
    obtain ⟨b, -, h⟩ := runMarks_get L n ops (newFlagged bs) s k
    rw [newFlagged_eq, List.getElem?_map, List.getElem?_eq_getElem hk] at h
    simp only [Option.map_some, Bool.false_or] at h
    have hp : position i (runMarks L n (newFlagged bs) s ops).2.1.length = some k :=
      flag_position_some.mpr ⟨hi, hlen ▸ hk⟩
    refine ⟨(runMarks L n (newFlagged bs) s ops).2.1.mark k, ?_⟩
    simp only [MarkOp.run, hp, Flagged.buildAt]
    rw [newFlagged_eq] at *
    rw [h]
  · intro hi
    have hp : position i (runMarks L n (newFlagged bs) s ops).2.1.length = none :=
      flag_position_none.mpr (hlen ▸ hi)
    simp only [MarkOp.run, hp]

/-- **C111** `Used` and `ReportUsed` change no build: the building calls return the same, and leave the same
arguments and query builders behind, as if the other calls had not been made. -/
theorem C111_flags_change_no_build (L : GoLib) (n : Nat) (bs : List Builder) (s : St) (ops : List MarkOp) :
    buildResults ops (runMarks L n (newFlagged bs) s ops).1 =
      (runMarks L n (newFlagged bs) s (ops.filter (·.isBuild))).1 ∧
    (runMarks L n (newFlagged bs) s ops).2.2 = (runMarks L n (newFlagged bs) s (ops.filter (·.isBuild))).2.2 :=
  runMarks_builds L n ops _ _ s rfl

/-- The hypotheses of C111: of three arguments the first is built, the third is reported, an index is out of range;
the second is unused. -/
example : let L : GoLib := ⟨fun _ => false, fun _ => none, fun _ => 0, fun _ s => s, fun _ => []⟩
    let ps := newFlagged (newArgsProperties [.int 0 1, .int 0 2, .int 0 3])
    let r := runMarks L 20 ps (St.init 1 []) [.build newEmptyContext 1, .build newEmptyContext 4, .reportUsed 2]
    r.2.1.map (·.2) = [true, false, true] ∧ r.2.2.store.args = [.int 0 1] := by
  decide +kernel

end Sqlf.Props
