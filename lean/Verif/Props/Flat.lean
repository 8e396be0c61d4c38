import Verif.Proofs.Flat
import Verif.Proofs.Memory
/-!
# C110: the list that `ArgsFlatted` returns
-/

namespace Sqlf.Props

open Spec

private theorem flatted (grow : Nat → Nat) (ty : Nat) (A : List (List Val)) (vs : List FlatArg) (hb : ∀ s, .anys s ∈ vs → InBounds A s) :
    match argsFlattedMem grow A vs with
    | .ok (B, r) => argsFlatted (vs.map (FlatArg.seen A ty)) = .ok (r.read B) ∧ InBounds B r ∧ A.length ≤ r.arr ∧ A.length ≤ B.length ∧
        ∀ k, k < A.length → B[k]? = A[k]?
    | .err e => argsFlatted (vs.map (FlatArg.seen A ty)) = .err e
    | .panic p => argsFlatted (vs.map (FlatArg.seen A ty)) = .panic p
    | .oof => argsFlatted (vs.map (FlatArg.seen A ty)) = .oof := by
  have hr : ∀ s, .anys s ∈ vs → s.read (A ++ [List.replicate 10 Val.nil]) = s.read A := fun s hs => (hb s hs).read_append _
  have hseen : vs.map (FlatArg.seen (A ++ [List.replicate 10 Val.nil]) ty) = vs.map (FlatArg.seen A ty) := by
    refine List.map_congr_left fun u hu => ?_
    cases u with
    | value w => rfl
    | anys s => simp only [FlatArg.seen, hr s hu]
  have h := flattedLoop_spec grow ty A.length vs (A ++ [List.replicate 10 Val.nil]) ⟨A.length, 0, 0, 10⟩ (by simp) (Nat.le_refl _)
    ⟨by simp, fun _ => ⟨List.replicate 10 Val.nil, by simp, by simp⟩⟩ (fun s hs => ⟨(hb s hs).append _, fun hc => (hb s hs).lt hc⟩)
  have he : argsFlattedMem grow A vs = flattedLoop grow (A ++ [List.replicate 10 Val.nil]) ⟨A.length, 0, 0, 10⟩ vs := by
    simp [argsFlattedMem, Slice.alloc]
  rw [he]
  rw [hseen] at h
  revert h
  cases flattedLoop grow (A ++ [List.replicate 10 Val.nil]) ⟨A.length, 0, 0, 10⟩ vs with
  | ok o =>
    obtain ⟨B, r⟩ := o
    rintro ⟨h1, -, h3, h4, h5, h6⟩
    refine ⟨?_, h3, h4, h5, fun k hk => (h6 k hk).trans (List.getElem?_append_left hk)⟩
    simpa [Slice.read] using h1
  | err e => exact id
  | panic p => exact id
  | oof => exact id

/-- **C110** With slices as they are in memory, `ArgsFlatted` has the same outcome as with lists of values (C44, C45), for
every `[]any` of the caller, with or without spare room, the same one twice included; and no array of the
caller is changed. -/
theorem C110_flattened_list (grow : Nat → Nat) (ty : Nat) (A : List (List Val)) (vs : List FlatArg) (hb : ∀ s, .anys s ∈ vs → InBounds A s) :
    (∀ xs, argsFlatted (vs.map (FlatArg.seen A ty)) = .ok xs ↔ ∃ B r, argsFlattedMem grow A vs = .ok (B, r) ∧ r.read B = xs) ∧
    (∀ p, argsFlatted (vs.map (FlatArg.seen A ty)) = .panic p ↔ argsFlattedMem grow A vs = .panic p) ∧
    ∀ B r, argsFlattedMem grow A vs = .ok (B, r) → ∀ k, k < A.length → B[k]? = A[k]? := by
  have h := flatted grow ty A vs hb
  revert h
  cases argsFlattedMem grow A vs with
  | ok o =>
    obtain ⟨B, r⟩ := o
    rintro ⟨h1, -, -, -, h5⟩
    refine ⟨fun xs => ?_, fun p => ?_, fun B' r' he => ?_⟩
    · rw [h1]
      constructor
      · rintro h; cases h; exact ⟨B, r, rfl, rfl⟩
      · rintro ⟨B', r', h, rfl⟩; cases h; rfl
    · rw [h1]; constructor <;> (intro h; cases h)
    · cases he; exact h5
  | err e =>
    intro h1
    dsimp only at h1
    rw [h1]
    exact ⟨fun xs => ⟨fun h => (by cases h), fun ⟨_, _, h, _⟩ => (by cases h)⟩, fun p => ⟨fun h => (by cases h), fun h => (by cases h)⟩,
      fun _ _ h => (by cases h)⟩
  | panic q =>
    intro h1
    dsimp only at h1
    rw [h1]
    exact ⟨fun xs => ⟨fun h => (by cases h), fun ⟨_, _, h, _⟩ => (by cases h)⟩, fun p => ⟨fun h => (by cases h; rfl), fun h => (by cases h; rfl)⟩,
      fun _ _ h => (by cases h)⟩
  | oof =>
    intro h1
    dsimp only at h1
    rw [h1]
    exact ⟨fun xs => ⟨fun h => (by cases h), fun ⟨_, _, h, _⟩ => (by cases h)⟩, fun p => ⟨fun h => (by cases h), fun h => (by cases h)⟩,
      fun _ _ h => (by cases h)⟩

private theorem use_other (grow : Nat → Nat) {B : List (List Val)} {s l : Slice} (hl : InBounds B l) (h : 0 < s.cap → 0 < l.cap → s.arr ≠ l.arr)
    (hs : s.len ≤ s.cap) (u : Use) : l.read (u.apply grow B s) = l.read B := by
  by_cases hc : 0 < l.cap
  · have hk : ∀ C : List (List Val), C[l.arr]? = B[l.arr]? → l.read C = l.read B := by
      intro C hC
      unfold Slice.read
      rw [List.getD_eq_getElem?_getD, List.getD_eq_getElem?_getD, hC]
    apply hk
    cases u with
    | assign i x =>
      simp only [Use.apply]
      split
      · next hi =>
        rw [List.getElem?_modify]
        simp [h (by omega) hc]
      · rfl
    | append xs => exact append_frame grow Val.nil B s xs l.arr (hl.lt hc) (fun h' => h h' hc)
  · have : l.len = 0 := by have := hl.1; omega
    simp [Slice.read, this]

/-- **C110** The list belongs to the caller: what they assign and append to it is not seen in any slice they had before, and
what they assign and append to one of these is not seen in the list. -/
theorem C110_list_is_new (grow : Nat → Nat) (A : List (List Val)) (vs : List FlatArg) (hb : ∀ s, .anys s ∈ vs → InBounds A s)
    (B : List (List Val)) (r : Slice) (h : argsFlattedMem grow A vs = .ok (B, r)) (s : Slice) (hs : InBounds A s) (u : Use) :
    s.read (u.apply grow B r) = s.read A ∧ r.read (u.apply grow B s) = r.read B := by
  have hf := flatted grow 0 A vs hb
  rw [h] at hf
  obtain ⟨-, h2, h3, h4, h5⟩ := hf
  have hsB : InBounds B s := ⟨hs.1, fun hc => by rw [h5 _ (hs.lt hc)]; exact hs.2 hc⟩
  have hrd : s.read B = s.read A := by
    by_cases hc : 0 < s.cap
    · unfold Slice.read
      rw [List.getD_eq_getElem?_getD, List.getD_eq_getElem?_getD, h5 _ (hs.lt hc)]
    · have : s.len = 0 := by have := hs.1; omega
      simp [Slice.read, this]
  refine ⟨(use_other grow hsB (fun _ hc => ?_) h2.1 u).trans hrd, use_other grow h2 (fun hc _ => ?_) hs.1 u⟩
  · have := hs.lt hc; omega
  · have := hs.lt hc; omega

private def anyArrays : List (List Val) := [[.int 0 1, .int 0 2, .int 0 3]]

/-- A slice with spare room, given twice with a value in between. -/
example (grow : Nat → Nat) : InBounds anyArrays ⟨0, 0, 2, 3⟩ ∧
    ∃ B r, argsFlattedMem grow anyArrays [.anys ⟨0, 0, 2, 3⟩, .value (.slice 7 [.int 0 9]), .anys ⟨0, 0, 2, 3⟩] = .ok (B, r) ∧
      r.read B = [.int 0 1, .int 0 2, .int 0 9, .int 0 1, .int 0 2] :=
  ⟨⟨by decide, fun _ => ⟨_, rfl, by decide⟩⟩, _, _, rfl, rfl⟩

end Sqlf.Props
