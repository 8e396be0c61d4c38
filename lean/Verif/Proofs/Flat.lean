import Verif.Spec.Flat
import Verif.Proofs.Taken
import Verif.Proofs.Kept
/-!
# Lemmas: `ArgsFlatted` in memory
-/

namespace Sqlf

open Spec

theorem append_length (grow : Nat → Nat) (z : α) (A : List (List α)) (s : Slice) (xs : List α) :
    A.length ≤ (s.append grow z A xs).1.length := by
  unfold Slice.append
  split
  · simp
  · simp [Slice.alloc]

theorem flattedLoop_spec (grow : Nat → Nat) (ty n : Nat) : ∀ (vs : List FlatArg) (A : List (List Val)) (acc : Slice),
    n ≤ A.length → n ≤ acc.arr → InBounds A acc → (∀ s, .anys s ∈ vs → InBounds A s ∧ (0 < s.cap → s.arr < n)) →
    match flattedLoop grow A acc vs with
    | .ok (B, r) => argsFlatted (vs.map (FlatArg.seen A ty)) = .ok ((r.read B).drop (acc.read A).length) ∧
        (r.read B).take (acc.read A).length = acc.read A ∧ InBounds B r ∧ n ≤ r.arr ∧ n ≤ B.length ∧ ∀ k, k < n → B[k]? = A[k]?
    | .err e => argsFlatted (vs.map (FlatArg.seen A ty)) = .err e
    | .panic p => argsFlatted (vs.map (FlatArg.seen A ty)) = .panic p
    | .oof => argsFlatted (vs.map (FlatArg.seen A ty)) = .oof
  | [], A, acc, hn, ha, hb, _ => by
    simp only [flattedLoop, List.map_nil, argsFlatted]
    exact ⟨by simp, by simp, hb, ha, hn, fun _ _ => trivial⟩
  | v :: vs, A, acc, hn, ha, hb, hs => by
    -- one step: the elements `xs` come from arrays `A1` that begin with `A`
    have step : ∀ (A1 : List (List Val)) (s : Slice) (xs : List Val), (∃ B, A1 = A ++ B) → s.read A1 = xs →
        argsFrom (FlatArg.seen A ty v) = .ok xs →
        argsFromMem A v = .ok (A1, s) →
        match flattedLoop grow A acc (v :: vs) with
        | .ok (B, r) => argsFlatted ((v :: vs).map (FlatArg.seen A ty)) = .ok ((r.read B).drop (acc.read A).length) ∧
            (r.read B).take (acc.read A).length = acc.read A ∧ InBounds B r ∧ n ≤ r.arr ∧ n ≤ B.length ∧ ∀ k, k < n → B[k]? = A[k]?
        | .err e => argsFlatted ((v :: vs).map (FlatArg.seen A ty)) = .err e
        | .panic p => argsFlatted ((v :: vs).map (FlatArg.seen A ty)) = .panic p
        | .oof => argsFlatted ((v :: vs).map (FlatArg.seen A ty)) = .oof := by
      rintro A1 s xs ⟨B1, rfl⟩ hx hf hm
      have hb1 : InBounds (A ++ B1) acc := hb.append B1
      obtain ⟨h1, h2⟩ := append_self grow Val.nil hb1 xs
      have hr : acc.read (A ++ B1) = acc.read A := hb.read_append B1
      have hw : n ≤ (acc.append grow .nil (A ++ B1) xs).2.arr := by
        rcases append_where grow Val.nil (A ++ B1) acc xs with ⟨h3, -⟩ | h3
        · omega
        · rw [h3, List.length_append]; omega
      have hl : n ≤ (acc.append grow .nil (A ++ B1) xs).1.length := by
        have := append_length grow Val.nil (A ++ B1) acc xs
        rw [List.length_append] at this
        omega
      have hk : ∀ k, k < n → (acc.append grow .nil (A ++ B1) xs).1[k]? = A[k]? := by
        intro k hk
        rw [append_frame grow Val.nil (A ++ B1) acc xs k (by rw [List.length_append]; omega) (fun _ => by omega)]
        exact List.getElem?_append_left (by omega)
      have hseen : ∀ u ∈ vs, FlatArg.seen (acc.append grow .nil (A ++ B1) xs).1 ty u = FlatArg.seen A ty u := by
        intro u hu
        cases u with
        | value w => rfl
        | anys t =>
          obtain ⟨ht, htn⟩ := hs t (List.mem_cons_of_mem _ hu)
          simp only [FlatArg.seen]
          congr 1
          by_cases hc : 0 < t.cap
          · unfold Slice.read
            rw [List.getD_eq_getElem?_getD, List.getD_eq_getElem?_getD, hk _ (htn hc)]
          · have : t.len = 0 := by have := ht.1; omega
            simp [Slice.read, this]
      have ih := flattedLoop_spec grow ty n vs (acc.append grow .nil (A ++ B1) xs).1 (acc.append grow .nil (A ++ B1) xs).2 hl hw h2 (by
        intro t ht
        obtain ⟨h3, h4⟩ := hs t (List.mem_cons_of_mem _ ht)
        refine ⟨⟨h3.1, fun hc => ?_⟩, h4⟩
        rw [hk _ (h4 hc)]
        exact h3.2 hc)
      rw [List.map_congr_left hseen, h1, hr] at ih
      have hstep : flattedLoop grow A acc (v :: vs) =
          flattedLoop grow (acc.append grow .nil (A ++ B1) xs).1 (acc.append grow .nil (A ++ B1) xs).2 vs := by
        simp only [flattedLoop, hm, hx]
      rw [hstep]
      simp only [List.map_cons, argsFlatted, hf]
      revert ih
      cases flattedLoop grow (acc.append grow .nil (A ++ B1) xs).1 (acc.append grow .nil (A ++ B1) xs).2 vs with
      | ok o =>
        obtain ⟨B, r⟩ := o
        rintro ⟨i1, i2, i3, i4, i5, i6⟩
        dsimp only
        rw [i1]
        refine ⟨?_, ?_, i3, i4, i5, fun k hk' => (i6 k hk').trans (hk k hk')⟩
        · have e : (r.read B) = acc.read A ++ xs ++ (r.read B).drop (acc.read A ++ xs).length := by
            rw [← i2, List.length_take]
            have hle : (acc.read A ++ xs).length ≤ (r.read B).length := by
              have := congrArg List.length i2
              rw [List.length_take] at this
              omega
            rw [Nat.min_eq_left hle, List.take_append_drop]
          have e2 : (r.read B).drop (acc.read A).length = xs ++ (r.read B).drop (acc.read A ++ xs).length := by
            conv => lhs; rw [e]
            rw [List.append_assoc, List.drop_left]
          rw [e2]
        · have := congrArg (List.take (acc.read A).length) i2
          rw [List.take_take, List.take_left] at this
          rwa [Nat.min_eq_left (by rw [List.length_append]; omega)] at this
      | err e => intro ih; dsimp only; rw [ih]
      | panic p => intro ih; dsimp only; rw [ih]
      | oof => intro ih; dsimp only; rw [ih]
    cases v with
    | anys s => exact step A s (s.read A) ⟨[], by simp⟩ rfl rfl rfl
    | value w =>
      cases hw : argsFrom w with
      | ok xs =>
        refine step (A ++ [xs ++ List.replicate 0 .nil]) ⟨A.length, 0, xs.length, xs.length + 0⟩ xs ⟨_, rfl⟩ ?_ hw ?_
        · simp [Slice.read]
        · simp only [argsFromMem, hw, Slice.alloc]
      | err e => simp only [flattedLoop, argsFromMem, hw, List.map_cons, FlatArg.seen, argsFlatted]
      | panic p => simp only [flattedLoop, argsFromMem, hw, List.map_cons, FlatArg.seen, argsFlatted]
      | oof => simp only [flattedLoop, argsFromMem, hw, List.map_cons, FlatArg.seen, argsFlatted]

end Sqlf
