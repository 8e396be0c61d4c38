import Verif.Proofs.Dest
import Verif.Props.Util
/-!
# C106: ScanRow and Scan, and the slices of the caller

`ScanRow(rows, dest...)` appends to `dest`, which is a slice of the caller.
-/

namespace Sqlf.Props

open Spec

/-- **C106** (partial) Exactly what `ScanRow(rows, dest...)` does to the arrays of the caller, whatever capacities
`append` chooses: the result is what the elements of `dest` say, and with `n` columns the places behind `dest`, up to
its capacity and the `n`-th from its beginning, are overwritten.  Nothing else is. -/
theorem C106_scan_row_exactly_partial (grow : Nat → Nat) (n : Nat) (conv : Nat → Val → Except Err Val) (row : List Val)
    (A : List (List Dest)) (s : Slice) (hs : InBounds A s) (r : Except Err (List (Nat × Val))) (A' : List (List Dest))
    (h : scanRowMem grow (.ok n) conv row A s = (r, A')) :
    r = scanRow (.ok n) conv row (s.read A) ∧
    ∀ k < A.length, ∀ i, (Behind s n k i → place A' k i = some .blackhole) ∧
      (¬ Behind s n k i → place A' k i = place A k i) := by
  unfold scanRowMem at h
  obtain ⟨h1, -, -, h4⟩ := appendHoles_spec grow (n - s.len) A s hs
  cases h
  refine ⟨?_, fun k hk i => ?_⟩
  · unfold scanRow
    dsimp only
    rw [h1, read_length hs]
  · obtain ⟨j1, j2⟩ := h4 k hk i
    refine ⟨fun hr => j1 ?_, fun hr => j2 fun hr' => hr ?_⟩
    · obtain ⟨a, b, c, d⟩ := hr
      exact ⟨a, b, c, by omega⟩
    · obtain ⟨a, b, c, d⟩ := hr'
      exact ⟨a, b, c, by omega⟩

/-- **C106** (partial) Every slice of the caller that does not reach behind the end of `dest` in the same array is as it was, in
particular `dest` itself. -/
theorem C106_others_stay_partial (grow : Nat → Nat) (columns : Except Err Nat) (conv : Nat → Val → Except Err Val) (row : List Val)
    (A : List (List Dest)) (s s' : Slice) (hs : InBounds A s) (hs' : InBounds A s')
    (ho : ∀ n, columns = .ok n → OutOfReach s n s') :
    s'.read (scanRowMem grow columns conv row A s).2 = s'.read A := by
  cases columns with
  | error e => rfl
  | ok n =>
    obtain ⟨-, h⟩ := C106_scan_row_exactly_partial grow n conv row A s hs _ _ rfl
    by_cases hl : s'.len = 0
    · simp [Slice.read, hl]
    · have hk := hs'.lt (by have := hs'.1; omega)
      exact read_congr fun i h1 h2 => (h _ hk i).2 (ho n rfl i h1 h2)

/-- A slice is out of its own reach; one without spare room reaches nothing; and so do destinations for all columns. -/
theorem C106_out_of_reach (s : Slice) (n : Nat) :
    OutOfReach s n s ∧ (s.cap ≤ s.len → ∀ s', OutOfReach s n s') ∧ (n ≤ s.len → ∀ s', OutOfReach s n s') := by
  refine ⟨?_, fun h s' => ?_, fun h s' => ?_⟩ <;> (intro i h1 h2 h3; obtain ⟨a, b, c, d⟩ := h3; omega)

/-- The arrays of the caller after scanning all rows, as far as a slice that nothing reaches is concerned. -/
private theorem scan_rows (grow : Nat → Nat) (columns : Except Err Nat) (conv : Nat → Val → Except Err Val) (fn : Nat → Given Dest)
    (A₀ : List (List Dest))
    (ho : ∀ i j s s' n, fn i = .spread s → fn j = .spread s' → columns = .ok n → OutOfReach s n s')
    (rows : List (List Val)) : ∀ (i : Nat) (A : List (List Dest)), (∀ j s, fn j = .spread s → InBounds A s ∧ s.read A = s.read A₀) →
      (scanRowsMem grow columns conv fn i rows A).1 = scanEach columns conv (fun j => (fn j).elems A₀) i rows := by
  induction rows with
  | nil => intro i A _; rfl
  | cons row rest ih =>
    intro i A hA
    unfold scanRowsMem scanEach
    -- the slice of this row
    have hslice : ∃ B s, (fn i).slice .blackhole A = (B, s) ∧ InBounds B s ∧ s.read B = (fn i).elems A₀ ∧
        (∀ j t, fn j = .spread t → InBounds B t ∧ t.read B = t.read A₀) ∧
        (∀ j t n, fn j = .spread t → columns = .ok n → OutOfReach s n t) := by
      cases hf : fn i with
      | spread s =>
        exact ⟨A, s, rfl, (hA i s hf).1, (hA i s hf).2, hA, fun j t n ht hn => ho i j s t n hf ht hn⟩
      | listed xs =>
        refine ⟨A ++ [xs ++ List.replicate 0 .blackhole], ⟨A.length, 0, xs.length, xs.length + 0⟩, rfl, ⟨by dsimp only; omega, fun _ => ⟨xs, ?_, ?_⟩⟩, ?_, ?_, ?_⟩
        · dsimp only
          rw [List.getElem?_append_right (Nat.le_refl _)]
          simp
        · simp
        · simp [Slice.read, List.getD_eq_getElem?_getD, Given.elems]
        · exact fun j t ht => ⟨(hA j t ht).1.append _, by rw [(hA j t ht).1.read_append, (hA j t ht).2]⟩
        · exact fun j t n ht hn => (C106_out_of_reach _ n).2.1 (by simp) t
    obtain ⟨B, s, h1, h2, h3, h4, h5⟩ := hslice
    rw [h1]
    dsimp only
    have hres : (scanRowMem grow columns conv row B s).1 = scanRow columns conv row ((fn i).elems A₀) := by
      cases columns with
      | error e => rfl
      | ok n => rw [← h3]; exact (C106_scan_row_exactly_partial grow n conv row B s h2 _ _ rfl).1
    have hafter : ∀ j t, fn j = .spread t → InBounds (scanRowMem grow columns conv row B s).2 t ∧
        t.read (scanRowMem grow columns conv row B s).2 = t.read A₀ := by
      intro j t ht
      refine ⟨⟨(h4 j t ht).1.1, fun hc => ?_⟩, ?_⟩
      · obtain ⟨a, ha, hl⟩ := (h4 j t ht).1.2 hc
        cases columns with
        | error e => exact ⟨a, ha, hl⟩
        | ok n =>
          obtain ⟨-, -, i3, -⟩ := appendHoles_spec grow (n - s.len) B s h2
          have := i3 t.arr (List.getElem?_eq_some_iff.1 ha).1
          rw [ha] at this
          unfold scanRowMem
          dsimp only
          cases hx : (appendHoles grow (n - s.len) B s).1[t.arr]? with
          | none => rw [hx] at this; cases this
          | some a' =>
            rw [hx] at this
            simp only [Option.map_some, Option.some.injEq] at this
            exact ⟨a', rfl, by omega⟩
      · rw [C106_others_stay_partial grow columns conv row B s t h2 (h4 j t ht).1 (fun n hn => h5 j t n ht hn), (h4 j t ht).2]
    revert hres hafter
    generalize scanRowMem grow columns conv row B s = x
    obtain ⟨r, C⟩ := x
    intro hres hafter
    dsimp only at hres hafter
    rw [← hres]
    cases r with
    | error e => rfl
    | ok r =>
      dsimp only
      have := ih (i + 1) C hafter
      revert this
      generalize scanRowsMem grow columns conv fn (i + 1) rest C = y
      obtain ⟨r', D⟩ := y
      intro this
      dsimp only at this
      rw [← this]
      cases r' <;> rfl

/-- **C106** (partial) `Scan` assigns each row to the fields that `fn` returns for it, also if these are slices of arrays of
the caller, as long as none of them is reached from another one. -/
theorem C106_scan_partial (grow : Nat → Nat) (columns : Except Err Nat) (conv : Nat → Val → Except Err Val) (fn : Nat → Given Dest)
    (A : List (List Dest)) (hb : ∀ i s, fn i = .spread s → InBounds A s)
    (ho : ∀ i j s s' n, fn i = .spread s → fn j = .spread s' → columns = .ok n → OutOfReach s n s') (rows : List (List Val)) :
    (scanRowsMem grow columns conv fn 0 rows A).1 = scanEach columns conv (fun i => (fn i).elems A) 0 rows :=
  scan_rows grow columns conv fn A ho rows 0 A fun j s h => ⟨hb j s h, rfl⟩

/-- `Scan` with a function that returns a literal `[]any{…}` for each row is the `Scan` of C51. -/
theorem C106_scan_literals (grow : Nat → Nat) (columns : Except Err Nat) (conv : Nat → Val → Except Err Val) (nFields : Nat)
    (rows : List (List Val)) (A : List (List Dest)) (e : Option Err) :
    (scanRowsMem grow columns conv (fun _ => .listed ((List.range nFields).map .field)) 0 rows A).1 =
      scan (.ok ⟨columns, rows, e⟩) conv nFields := by
  rw [C106_scan_partial grow columns conv _ A (fun i s h => by cases h) (fun i j s s' n h => by cases h)]
  show scanEach columns conv (fun _ => (List.range nFields).map .field) 0 rows = scanRows columns conv nFields rows
  generalize 0 = i
  induction rows generalizing i with
  | nil => rfl
  | cons row rest ih =>
    unfold scanEach scanRows
    rw [ih (i + 1)]
    cases scanRow columns conv row ((List.range nFields).map .field) with
    | error e => rfl
    | ok r => cases scanRows columns conv nFields rest <;> rfl

/-- `all := []any{&a, &b, &c}`: two columns of three rows of three into `all[:2]`, always the same. -/
example (grow : Nat → Nat) : (scanRowsMem grow (.ok 3) (fun _ v => .ok v) (fun _ => .spread ⟨0, 0, 2, 3⟩) 0
      [[.int 0 1, .int 0 2, .int 0 3], [.int 0 4, .int 0 5, .int 0 6]] [[.field 0, .field 1, .field 2]]).1 =
    .ok [[(0, .int 0 1), (1, .int 0 2)], [(0, .int 0 4), (1, .int 0 5)]] := by
  rw [C106_scan_partial grow _ _ _ _ (fun i s h => by cases h; exact ⟨by decide, fun _ => ⟨_, rfl, by decide⟩⟩)
    (fun i j s s' n h h' _ => by cases h; cases h'; exact (C106_out_of_reach _ n).1)]
  rfl

/-- **C106** is false of the code: with `all := []any{&a, &b, &c}`, `ScanRow(rows, all[:2]...)` of a row of three columns
replaces `all[2]`, so that `ScanRow(rows, all...)` afterwards succeeds without assigning `c`.  Without the first call it
assigns it. -/
theorem C106_lost_field_counterexample (grow : Nat → Nat) (a b c : Val) :
    ∃ A, scanRowMem grow (.ok 3) (fun _ v => .ok v) [a, b, c] [[.field 0, .field 1, .field 2]] ⟨0, 0, 2, 3⟩ =
        (.ok [(0, a), (1, b)], A) ∧
      (scanRowMem grow (.ok 3) (fun _ v => .ok v) [a, b, c] A ⟨0, 0, 3, 3⟩).1 = .ok [(0, a), (1, b)] ∧
      (scanRowMem grow (.ok 3) (fun _ v => .ok v) [a, b, c] [[.field 0, .field 1, .field 2]] ⟨0, 0, 3, 3⟩).1 =
        .ok [(0, a), (1, b), (2, c)] :=
  ⟨_, rfl, rfl, rfl⟩

end Sqlf.Props
