import Verif.Spec.UsedFlags
/-!
# Lemmas about the flags of properties
-/

namespace Sqlf

theorem newFlagged_eq (bs : List Builder) : newFlagged bs = bs.map (·, false) := by
  induction bs with
  | nil => rfl
  | cons b bs ih => simp [newFlagged, ih]

theorem flagMark_values (ps : Flagged) (k : Nat) : (ps.mark k).map (·.1) = ps.map (·.1) := by
  induction ps generalizing k with
  | nil => rfl
  | cons p ps ih => cases k <;> simp [Flagged.mark, ih]

theorem flagMark_get (ps : Flagged) (k j : Nat) :
    (ps.mark k)[j]? = (ps[j]?).map fun p => (p.1, p.2 || decide (j = k)) := by
  induction ps generalizing k j with
  | nil => simp [Flagged.mark]
  | cons p ps ih =>
    cases k with
    | zero => cases j <;> simp [Flagged.mark]
    | succ k => cases j <;> simp [Flagged.mark, ih]

theorem flag_position_none {i : Int} {n : Nat} : position i n = none ↔ i < 1 ∨ i > n := by
  unfold position; split <;> simp_all

theorem flag_position_some {i : Int} {n k : Nat} : position i n = some k ↔ i = (k : Int) + 1 ∧ k < n := by
  unfold position
  split
  · simp; omega
  · simp; omega

theorem flagBuildAt_flags (L : GoLib) (n : Nat) (ctx : Ctx) (ps : Flagged) (k : Nat) (s : St) :
    (ps.buildAt L n ctx k s).2.1 = ps.mark k := by
  unfold Flagged.buildAt
  split
  · rename_i h
    refine List.ext_getElem? fun j => ?_
    rw [flagMark_get]
    cases hj : ps[j]? with
    | none => rfl
    | some p =>
      have : j ≠ k := by rintro rfl; simp [hj] at h
      simp [this]
  · rfl

/-- A call changes the flags of the properties that it asks for, and nothing else. -/
theorem flagRun_get (L : GoLib) (n : Nat) (ps : Flagged) (s : St) (op : MarkOp) (j : Nat) :
    ∃ b : Bool, (b = true ↔ op.AsksFor j) ∧ (op.run L n ps s).2.1[j]? = (ps[j]?).map fun p => (p.1, p.2 || b) := by
  have keep : ∀ b : Bool, ps[j]? = none → (ps[j]?) = (ps[j]?).map fun p => (p.1, p.2 || b) := by
    intro b h; simp [h]
  have same : (ps[j]?) = (ps[j]?).map fun p => (p.1, p.2 || false) := by cases ps[j]? <;> simp
  cases op with
  | build ctx i =>
    refine ⟨decide (i = (j : Int) + 1), by simp [MarkOp.AsksFor], ?_⟩
    simp only [MarkOp.run]
    cases hp : position i ps.length with
    | none =>
      simp only
      by_cases hi : i = (j : Int) + 1
      · exact keep _ (by rw [flag_position_none] at hp; simp; omega)
      · simp [hi]
    | some k =>
      simp only [flagBuildAt_flags, flagMark_get]
      obtain ⟨hi, -⟩ := flag_position_some.mp hp
      have : decide (j = k) = decide (i = (j : Int) + 1) := by simp; omega
      rw [this]
  | buildItem ctx k =>
    refine ⟨decide (j = k), by simp [MarkOp.AsksFor, eq_comm], ?_⟩
    simp only [MarkOp.run, flagBuildAt_flags, flagMark_get]
  | reportUsed k =>
    refine ⟨decide (j = k), by simp [MarkOp.AsksFor, eq_comm], ?_⟩
    simp only [MarkOp.run]
    split
    · rename_i h
      by_cases hj : j = k
      · exact keep _ (hj ▸ h)
      · simp [hj]
    · simp only [flagMark_get]
  | used k =>
    refine ⟨false, by simp [MarkOp.AsksFor], ?_⟩
    simp only [MarkOp.run]
    split <;> exact same

theorem runMarks_get (L : GoLib) (n : Nat) (ops : List MarkOp) (ps : Flagged) (s : St) (j : Nat) :
    ∃ b : Bool, (b = true ↔ ∃ op ∈ ops, op.AsksFor j) ∧
      (runMarks L n ps s ops).2.1[j]? = (ps[j]?).map fun p => (p.1, p.2 || b) := by
  induction ops generalizing ps s with
  | nil => exact ⟨false, by simp, by cases h : ps[j]? <;> simp [runMarks, h]⟩
  | cons op ops ih =>
    obtain ⟨b, hb, h⟩ := flagRun_get L n ps s op j
    obtain ⟨b', hb', h'⟩ := ih (op.run L n ps s).2.1 (op.run L n ps s).2.2
    refine ⟨b || b', by simp [hb, hb'], ?_⟩
    simp only [runMarks, h', h, Option.map_map]
    congr 1
    funext p
    simp [Bool.or_assoc]

/-- The value of a list does not depend on its flags. -/
theorem flagRun_values (L : GoLib) (n : Nat) (ps : Flagged) (s : St) (op : MarkOp) :
    (op.run L n ps s).2.1.map (·.1) = ps.map (·.1) := by
  refine List.ext_getElem? fun j => ?_
  obtain ⟨b, -, h⟩ := flagRun_get L n ps s op j
  simp [h, Function.comp_def]

theorem flagBuildAt_same {L : GoLib} {n : Nat} {ctx : Ctx} {ps qs : Flagged} {k : Nat} {s : St}
    (h : ps.map (·.1) = qs.map (·.1)) :
    (ps.buildAt L n ctx k s).1 = (qs.buildAt L n ctx k s).1 ∧ (ps.buildAt L n ctx k s).2.2 = (qs.buildAt L n ctx k s).2.2 := by
  have hk := congrArg (·[k]?) h
  simp only [List.getElem?_map] at hk
  unfold Flagged.buildAt
  cases hp : ps[k]? with
  | none =>
    cases hq : qs[k]? with
    | none => exact ⟨rfl, rfl⟩
    | some q => simp [hp, hq] at hk
  | some p =>
    cases hq : qs[k]? with
    | none => simp [hp, hq] at hk
    | some q =>
      simp only [hp, hq, Option.map_some, Option.some.injEq] at hk
      simp [hk]

/-- What a building call returns and does depends on the values only. -/
theorem flagRun_same {L : GoLib} {n : Nat} {ps qs : Flagged} {s : St} {op : MarkOp}
    (h : ps.map (·.1) = qs.map (·.1)) (ho : op.isBuild = true) :
    (op.run L n ps s).1 = (op.run L n qs s).1 ∧ (op.run L n ps s).2.2 = (op.run L n qs s).2.2 := by
  have hl : ps.length = qs.length := by simpa using congrArg List.length h
  cases op with
  | build ctx i =>
    simp only [MarkOp.run, hl]
    cases position i qs.length with
    | none => exact ⟨rfl, rfl⟩
    | some k => exact flagBuildAt_same h
  | buildItem ctx k => exact flagBuildAt_same h
  | reportUsed k => cases ho
  | used k => cases ho

theorem flagRun_other {L : GoLib} {n : Nat} {ps : Flagged} {s : St} {op : MarkOp} (ho : op.isBuild = false) :
    (op.run L n ps s).2.2 = s := by
  cases op with
  | build ctx i => cases ho
  | buildItem ctx k => cases ho
  | reportUsed k => simp only [MarkOp.run]; split <;> rfl
  | used k => simp only [MarkOp.run]; split <;> rfl

theorem runMarks_builds (L : GoLib) (n : Nat) (ops : List MarkOp) (ps qs : Flagged) (s : St)
    (h : ps.map (·.1) = qs.map (·.1)) :
    buildResults ops (runMarks L n ps s ops).1 = (runMarks L n qs s (ops.filter (·.isBuild))).1 ∧
    (runMarks L n ps s ops).2.2 = (runMarks L n qs s (ops.filter (·.isBuild))).2.2 := by
  induction ops generalizing ps qs s with
  | nil => exact ⟨rfl, rfl⟩
  | cons op ops ih =>
    cases ho : op.isBuild with
    | false =>
      obtain ⟨h1, h2⟩ := ih (op.run L n ps s).2.1 qs (op.run L n ps s).2.2 ((flagRun_values ..).trans h)
      rw [flagRun_other ho] at h1 h2
      simp only [runMarks, buildResults, ho, List.filter_cons, flagRun_other ho]
      exact ⟨h1, h2⟩
    | true =>
      obtain ⟨e1, e2⟩ := flagRun_same (L := L) (n := n) (s := s) h ho
      obtain ⟨h1, h2⟩ := ih (op.run L n ps s).2.1 (op.run L n qs s).2.1 (op.run L n ps s).2.2
        ((flagRun_values ..).trans (h.trans (flagRun_values ..).symm))
      simp only [runMarks, buildResults, ho, List.filter_cons, if_true, e1, ← e2, h1, h2]
      exact ⟨trivial, trivial⟩

end Sqlf
