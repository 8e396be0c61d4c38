import Verif.Spec.Dest
import Verif.Proofs.Memory
/-!
# Lemmas: destinations in memory
-/

namespace Sqlf

open Spec

theorem overwrite_get (a : List α) (i : Nat) (x : α) (h : i < a.length) (j : Nat) :
    (overwrite a i [x])[j]? = if j = i then some x else a[j]? := by
  unfold overwrite
  rw [List.append_assoc]
  rcases Nat.lt_trichotomy j i with hj | hj | hj
  · rw [List.getElem?_append_left (by simp; omega), List.getElem?_take_of_lt hj, if_neg (by omega)]
  · subst hj
    rw [List.getElem?_append_right (by simp; omega)]
    simp [Nat.min_eq_left (Nat.le_of_lt h)]
  · rw [List.getElem?_append_right (by simp; omega), if_neg (by omega)]
    have : j - (a.take i).length = (j - i - 1) + 1 := by simp; omega
    rw [this, List.singleton_append, List.getElem?_cons_succ, List.getElem?_drop]
    congr 1
    simp
    omega

/-- The slice reads the places of its window. -/
theorem read_get (A : List (List α)) (s : Slice) (j : Nat) :
    (s.read A)[j]? = if j < s.len then place A s.arr (s.off + j) else none := by
  unfold Slice.read place
  rw [List.getD_eq_getElem?_getD]
  by_cases hj : j < s.len
  · rw [if_pos hj, List.getElem?_take_of_lt hj, List.getElem?_drop]
    cases A[s.arr]? with
    | none => simp
    | some a => rfl
  · rw [if_neg hj, List.getElem?_eq_none]
    simp
    omega

theorem read_congr {A B : List (List α)} {s : Slice} (h : ∀ i, s.off ≤ i → i < s.off + s.len → place B s.arr i = place A s.arr i) :
    s.read B = s.read A := by
  apply List.ext_getElem?
  intro j
  rw [read_get, read_get]
  by_cases hj : j < s.len
  · rw [if_pos hj, if_pos hj, h _ (by omega) (by omega)]
  · rw [if_neg hj, if_neg hj]

theorem read_length {A : List (List α)} {s : Slice} (h : InBounds A s) : (s.read A).length = s.len := by
  obtain ⟨h1, h2⟩ := h
  unfold Slice.read
  rw [List.getD_eq_getElem?_getD]
  by_cases hc : 0 < s.cap
  · obtain ⟨a, ha, hl⟩ := h2 hc
    rw [ha]
    simp
    omega
  · simp
    omega

theorem place_append (A B : List (List α)) (k i : Nat) (hk : k < A.length) : place (A ++ B) k i = place A k i := by
  unfold place
  rw [List.getElem?_append_left hk]

theorem place_modify (A : List (List α)) (m i : Nat) (x : α) (k j : Nat) (a : List α) (ha : A[m]? = some a) (hi : i < a.length) :
    place (A.modify m fun a => overwrite a i [x]) k j = if k = m ∧ j = i then some x else place A k j := by
  unfold place
  rw [List.getElem?_modify]
  by_cases hk : m = k
  · subst hk
    rw [ha]
    simp [overwrite_get a i x hi]
  · rw [if_neg (fun h => hk h.1.symm)]
    simp [hk]

theorem appendHoles_spec (grow : Nat → Nat) : ∀ (n : Nat) (A : List (List Dest)) (s : Slice), InBounds A s →
    (appendHoles grow n A s).2.read (appendHoles grow n A s).1 = s.read A ++ List.replicate n .blackhole ∧
    A.length ≤ (appendHoles grow n A s).1.length ∧
    (∀ k < A.length, (A[k]?).map List.length = ((appendHoles grow n A s).1[k]?).map List.length) ∧
    ∀ k < A.length, ∀ i, (Behind s (s.len + n) k i → place (appendHoles grow n A s).1 k i = some .blackhole) ∧
      (¬ Behind s (s.len + n) k i → place (appendHoles grow n A s).1 k i = place A k i)
  | 0, A, s, h => by
    refine ⟨by simp [appendHoles], Nat.le_refl _, fun _ _ => rfl, fun k _ i => ⟨fun hr => ?_, fun _ => rfl⟩⟩
    obtain ⟨-, h1, -, h2⟩ := hr
    omega
  | n + 1, A, s, h => by
    unfold appendHoles
    by_cases hroom : s.len + 1 ≤ s.cap
    · have he : s.append grow .blackhole A [.blackhole] =
          (A.modify s.arr fun a => overwrite a (s.off + s.len) [.blackhole], { s with len := s.len + 1 }) := by
        simp [Slice.append, hroom]
      rw [he]
      dsimp only
      obtain ⟨a, ha, hl⟩ := h.2 (by omega)
      have hb : InBounds (A.modify s.arr fun a => overwrite a (s.off + s.len) [.blackhole]) { s with len := s.len + 1 } := by
        refine ⟨hroom, fun _ => ⟨overwrite a (s.off + s.len) [.blackhole], ?_, ?_⟩⟩
        · rw [List.getElem?_modify]; simp [ha]
        · rw [overwrite_length _ _ _ (by simp; omega)]; exact hl
      obtain ⟨i1, i2, i3, i4⟩ := appendHoles_spec grow n _ _ hb
      rw [List.length_modify] at i2 i3 i4
      have hplace := fun k j => place_modify A s.arr (s.off + s.len) Dest.blackhole k j a ha (by omega)
      refine ⟨?_, i2, ?_, ?_⟩
      · rw [i1, show List.replicate (n + 1) Dest.blackhole = [.blackhole] ++ List.replicate n .blackhole from rfl, ← List.append_assoc]
        congr 1
        apply List.ext_getElem?
        intro j
        have hr := read_length h
        rcases Nat.lt_trichotomy j s.len with hj | hj | hj
        · rw [List.getElem?_append_left (by omega), read_get, read_get, if_pos (by simp; omega), if_pos hj]
          rw [hplace, if_neg (by dsimp only; omega)]
        · subst hj
          rw [List.getElem?_append_right (by omega), hr, read_get, if_pos (by simp), hplace, if_pos ⟨rfl, rfl⟩]
          simp
        · rw [read_get, if_neg (by dsimp only; omega), List.getElem?_eq_none]
          rw [List.length_append, hr, List.length_singleton]
          omega
      · intro k hk
        rw [← i3 k hk, List.getElem?_modify]
        by_cases hk' : s.arr = k
        · subst hk'
          rw [ha]
          simp [overwrite_length a (s.off + s.len) [Dest.blackhole] (by simp; omega)]
        · cases A[k]? <;> simp [hk']
      · intro k hk i
        obtain ⟨j1, j2⟩ := i4 k hk i
        refine ⟨fun hr => ?_, fun hr => ?_⟩
        · by_cases hi : i = s.off + s.len
          · rw [j2, hplace, if_pos ⟨hr.1, hi⟩]
            rintro ⟨-, h1, -⟩
            dsimp only at h1
            omega
          · obtain ⟨h0, h1, h2, h3⟩ := hr
            exact j1 ⟨h0, by dsimp only; omega, h2, by dsimp only; omega⟩
        · rw [j2, hplace, if_neg]
          · rintro ⟨rfl, rfl⟩
            exact hr ⟨rfl, Nat.le_refl _, by omega, by omega⟩
          · rintro ⟨h0, h1, h2, h3⟩
            dsimp only at h0 h1 h2 h3
            exact hr ⟨h0, by omega, h2, by omega⟩
    · have he : s.append grow .blackhole A [.blackhole] =
          Slice.alloc .blackhole A (s.read A ++ [.blackhole]) (grow (s.len + 1)) := by
        simp [Slice.append, hroom]
      rw [he]
      unfold Slice.alloc
      dsimp only
      have hb : InBounds (A ++ [s.read A ++ [Dest.blackhole] ++ List.replicate (grow (s.len + 1)) .blackhole])
          ⟨A.length, 0, (s.read A ++ [Dest.blackhole]).length, (s.read A ++ [Dest.blackhole]).length + grow (s.len + 1)⟩ :=
        ⟨by dsimp only; omega, fun _ => ⟨s.read A ++ [Dest.blackhole] ++ List.replicate (grow (s.len + 1)) .blackhole,
          by dsimp only; rw [List.getElem?_append_right (Nat.le_refl _)]; simp, by simp; omega⟩⟩
      obtain ⟨i1, i2, i3, i4⟩ := appendHoles_spec grow n _ _ hb
      rw [List.length_append, List.length_singleton] at i2 i3 i4
      refine ⟨?_, by omega, ?_, ?_⟩
      · rw [i1, show List.replicate (n + 1) Dest.blackhole = [.blackhole] ++ List.replicate n .blackhole from rfl, ← List.append_assoc]
        congr 1
        generalize s.read A = w
        unfold Slice.read
        dsimp only
        rw [List.getD_eq_getElem?_getD, List.getElem?_append_right (Nat.le_refl _), Nat.sub_self, List.getElem?_cons_zero, Option.getD_some, List.drop_zero,
          List.take_left]
      · intro k hk
        rw [← i3 k (by omega), List.getElem?_append_left hk]
      · intro k hk i
        have hno : ¬ Behind s (s.len + (n + 1)) k i := by
          rintro ⟨-, h1, h2, -⟩
          omega
        refine ⟨fun hr => absurd hr hno, fun _ => ?_⟩
        rw [(i4 k (by omega) i).2, place_append _ _ _ _ hk]
        rintro ⟨h0, -⟩
        dsimp only at h0
        omega

end Sqlf
