import Verif.Proofs.EncodeText
import Verif.Spec.Util
import Verif.Proofs.Interpolate
import Verif.KernelRfl
/-!
# C44, C45, C46 (reading back), C48, C50, C51, C52: package util
-/

namespace Sqlf.Props

open Spec

/-! ## ArgsFlatted -/

private theorem argsFrom_eq (v : Val) :
    argsFrom v = if isNilSlicePtr v then .panic .nilDereference
      else .ok ((listElems v).getD [v]) := by
  cases v with
  | stringer i h t es => cases es <;> simp [argsFrom, isNilSlicePtr, listElems]
  | valuer i h t es => cases es <;> simp [argsFrom, isNilSlicePtr, listElems]
  | nilPtr t f => cases f <;> simp [argsFrom, isNilSlicePtr, listElems]
  | ptr i t =>
    cases t with
    | stringer i h t es => cases es <;> simp [argsFrom, isNilSlicePtr, listElems]
    | valuer i h t es => cases es <;> simp [argsFrom, isNilSlicePtr, listElems]
    | _ => simp [argsFrom, isNilSlicePtr, listElems]
  | _ => simp [argsFrom, isNilSlicePtr, listElems]

private theorem argsFlatted_eq (vs : List Val) :
    argsFlatted vs = if vs.any isNilSlicePtr then .panic .nilDereference
      else .ok (flatten vs) := by
  induction vs with
  | nil => simp [argsFlatted, flatten]
  | cons v vs ih =>
    simp only [argsFlatted, argsFrom_eq, ih]
    by_cases h1 : isNilSlicePtr v = true
    · simp [h1]
    · by_cases h2 : vs.any isNilSlicePtr = true
      · rw [if_neg h1, if_pos h2, if_pos (by simp [h2])]
      · rw [if_neg h1, if_neg h2, if_neg (by simp [h1, h2])]
        simp [flatten]

/-- **C44** ArgsFlatted returns the concatenation of the arguments with list values (slices,
arrays, pointers to them) replaced by their elements, one level deep, in order.  (Nil pointers
to slices are excluded: see C45.) -/
theorem C44_argsFlatted_is_flatten (vs : List Val)
    (h : ∀ v ∈ vs, isNilSlicePtr v = false) : argsFlatted vs = .ok (flatten vs) := by
  rw [argsFlatted_eq, if_neg]
  simp only [List.any_eq_true, not_exists, not_and]
  intro v hv; simp [h v hv]

/-- Flattening is one level only and keeps the order. -/
example : argsFlatted [.int 0 1, .slice 1 [.int 0 2, .slice 1 [.int 0 3]], .ptr 5 (.array 2 [.int 0 4])]
    = .ok [.int 0 1, .int 0 2, .slice 1 [.int 0 3], .int 0 4] := by rfl

/-- **C45** (partial) ArgsFlatted panics exactly if one of the values is a nil pointer to a slice
of a basic type; otherwise it returns.  Missing for the full property: that case. -/
theorem C45_argsFlatted_panics_iff_partial (vs : List Val) :
    (∃ p, argsFlatted vs = .panic p) ↔ ∃ v ∈ vs, isNilSlicePtr v = true := by
  rw [argsFlatted_eq]
  constructor
  · rintro ⟨p, h⟩
    split at h
    · rename_i hx; simpa using hx
    · simp at h
  · rintro ⟨v, hv, h⟩
    exact ⟨.nilDereference, by rw [if_pos]; simp only [List.any_eq_true]; exact ⟨v, hv, h⟩⟩

/-- **C45** is false: `ArgsFlatted((*[]int)(nil))` panics. -/
theorem C45_nil_slice_pointer_counterexample (ty : Nat) :
    argsFlatted [.nilPtr ty true] = .panic .nilDereference := rfl

/-! ## Interpolate -/

/-- **C46** (reading back) The text Interpolate writes for a string is one SQL string literal: a
reader that takes a doubled quote as one quote and a single quote as the end reads exactly the
original string, whatever follows (as long as no quote follows directly). -/
theorem C46_quoted_string_reads_back (s rest : Str) (h : rest.head? ≠ some 0x27) :
    readLiteral (quoteString s ++ rest) = some (s, rest) := by
  have hq : lit "'" = [0x27] := by decide
  have key : ∀ s : Str, readBody (escapeQuotes s ++ (0x27 :: rest)) = some (s, rest) := by
    intro s
    induction s with
    | nil =>
      cases rest with
      | nil => rfl
      | cons b t =>
        have : b ≠ 0x27 := by simpa using h
        simp [escapeQuotes, readBody, this]
    | cons b s ih =>
      by_cases hb : b = 0x27
      · subst hb
        simp [escapeQuotes, readBody, ih]
      · cases hs : escapeQuotes s ++ 0x27 :: rest with
        | nil => simp at hs
        | cons c t =>
          rw [hs] at ih
          simp [escapeQuotes, hb, readBody, hs, ih]
  simp [quoteString, hq, readLiteral, key]

example : (lit "' AND 1=1").head? = some 0x27 ∧ (lit " AND 1=1").head? ≠ some 0x27 := by decide

/-- O'Reilly is written `'O''Reilly'`. -/
example : quoteString (lit "O'Reilly") = lit "'O''Reilly'" := by decide

/-- **C46** The text Interpolate writes for a string of any string type, for a Stringer, or for a Valuer that gives
one of these, is such a literal. -/
theorem C46_interpolate_quotes_strings (L : GoLib) (layout : Str) (v : Val) (s : Str) (hv : textOf v = some s) :
    ∃ t, encodeValue L layout v = .ok t ∧
      ∀ rest : Str, rest.head? ≠ some 0x27 → readLiteral (t ++ rest) = some (s, rest) := by
  exact ⟨quoteString s, encode_text L layout hv, fun rest h => C46_quoted_string_reads_back s rest h⟩

example : textOf (.valuer 1 true (some (.stringer 2 true (lit "it's") none)) none) = some (lit "it's") := rfl

/-- **C48** (partial) Interpolate returns a text or an error whenever every bind variable of the
query refers to an argument that exists and no argument is (or gives) a nil pointer with a method of the type it
points to.  Missing: these cases. -/
theorem C48_interpolate_returns_partial (L : GoLib) (layout query : Str) (args : List Val)
    (h : ∀ es, parse L query = .ok es → ∀ st i, Expr.bindVar st i ∈ es → 1 ≤ i ∧ i ≤ args.length)
    (hw : ∀ v ∈ args, ¬ WritingPanics v) :
    (∃ t, interpolate L layout query args = .ok t) ∨
    (∃ e, interpolate L layout query args = .err e) := by
  unfold interpolate
  split
  · exact .inr ⟨_, rfl⟩
  · rename_i es hp
    cases hr : interpolateExprs L layout args es with
    | ok t => exact .inl ⟨t, rfl⟩
    | err e => exact .inr ⟨e, rfl⟩
    | panic p =>
      obtain ⟨st, i, h1, ⟨h2, -⟩ | ⟨⟨v, hv, h2⟩, -⟩⟩ := interpolateExprs_panic hr
      · have := h es hp st i h1
        omega
      · exact absurd h2 (hw v (List.mem_of_getElem? hv))
    | oof => exact absurd hr (interpolateExprs_ne_oof L layout args es)

/-- The hypothesis holds for `a = $1 AND b = $2` with two arguments. -/
example (L : GoLib) : parse L (lit "a = $1 AND b = $2")
    = .ok [.plain (lit "a = "), .bindVar dollar 1, .plain (lit " AND b = "), .bindVar dollar 2] ∧
    ∀ v ∈ [Val.nil, .valuer 1 true (some (.int 64 1)) none], ¬ WritingPanics v :=
  ⟨by kernel_rfl, by simp [WritingPanics]⟩

/-- **C48** is false: Interpolate panics on a bind variable without argument. -/
theorem C48_interpolate_panics_counterexample (L : GoLib) (layout : Str) :
    interpolate L layout (lit "a = $2") [.int 0 1] = .panic .indexOutOfRange := by
  kernel_rfl

/-- It also panics on an argument like `(*time.Time)(nil)`, a nil pointer with a method of the type it points to;
other nil pointers are an error. -/
theorem C48_nil_pointer_counterexample (L : GoLib) (layout : Str) (ty : Nat) :
    interpolate L layout (lit "a = $1") [.nilRecv ty] = .panic .nilDereference ∧
    interpolate L layout (lit "a = $1") [.nilPtr ty false] = .err .unsupportedType := by
  constructor <;> kernel_rfl

/-! ## ScanRow, Scan, Count -/

private theorem assignAll_blackholes (conv : Nat → Val → Except Err Val) (n : Nat) (vs : List Val) :
    assignAll conv (List.replicate n .blackhole) vs = .ok [] := by
  induction n generalizing vs with
  | zero => simp [assignAll]
  | succ n ih => cases vs <;> simp [List.replicate_succ, assignAll, ih]

private theorem assignAll_fields (conv : Nat → Val → Except Err Val) (fields : List Nat)
    (n : Nat) (row : List Val) (h : fields.length ≤ row.length) :
    assignAll conv (fields.map Dest.field ++ List.replicate n .blackhole) row
      = (fields.zip row).mapM fun p => (conv p.1 p.2).map fun w => (p.1, w) := by
  induction fields generalizing row with
  | nil => simp [assignAll_blackholes]; rfl
  | cons f fs ih =>
    cases row with
    | nil => simp at h
    | cons v vs =>
      have := ih vs (by simpa using h)
      simp only [List.map_cons, List.cons_append, assignAll, this, List.zip_cons_cons, List.mapM_cons]
      cases conv f v with
      | error e => rfl
      | ok w =>
        cases ((fs.zip vs).mapM fun p => (conv p.1 p.2).map fun w => (p.1, w)) <;> rfl

/-- **C50** ScanRow assigns the first columns to the destinations in order (each converted by the
driver's conversion `conv`, failing if that fails) and ignores all further columns. -/
theorem C50_scanRow_drops_extra_columns (conv : Nat → Val → Except Err Val) (fields : List Nat)
    (row : List Val) (h : fields.length ≤ row.length) :
    scanRow (.ok row.length) conv row (fields.map .field)
      = (fields.zip row).mapM fun p => (conv p.1 p.2).map fun w => (p.1, w) := by
  have hlen : (fields.map Dest.field
      ++ List.replicate (row.length - (fields.map Dest.field).length) Dest.blackhole).length = row.length := by
    simp; omega
  simp only [scanRow, rowsScan]
  rw [if_neg (fun hc => hc hlen)]
  exact assignAll_fields conv fields _ row h

/-- **C50** (too few columns) ScanRow fails if there are fewer columns than destinations. -/
theorem C50_scanRow_too_few_columns (conv : Nat → Val → Except Err Val) (fields : List Nat)
    (row : List Val) (h : row.length < fields.length) :
    ∃ e, scanRow (.ok row.length) conv row (fields.map .field) = .error e := by
  refine ⟨.builder (lit "sql: wrong number of destinations"), ?_⟩
  simp only [scanRow, rowsScan]
  rw [if_pos]
  simp; omega

/-- Two destinations, three columns. -/
example : scanRow (.ok 3) (fun _ v => .ok v) [.int 0 1, .int 0 2, .int 0 3] [.field 7, .field 8]
    = .ok [(7, .int 0 1), (8, .int 0 2)] := by rfl

private theorem scanRows_eq (conv : Nat → Val → Except Err Val) (nFields nCols : Nat)
    (rows : List (List Val)) (hr : ∀ r ∈ rows, r.length = nCols) (hn : nFields ≤ nCols) :
    scanRows (.ok nCols) conv nFields rows
      = rows.mapM fun row => ((List.range nFields).zip row).mapM fun p =>
          (conv p.1 p.2).map fun w => (p.1, w) := by
  induction rows with
  | nil => rfl
  | cons r rs ih =>
    have h1 := hr r (by simp)
    have h2 := C50_scanRow_drops_extra_columns conv (List.range nFields) r (by simp; omega)
    rw [h1] at h2
    simp only [scanRows, h2, ih (fun r hr' => hr r (by simp [hr'])), List.mapM_cons]
    cases (((List.range nFields).zip r).mapM fun p => (conv p.1 p.2).map fun w => (p.1, w)) with
    | error e => rfl
    | ok w => cases (rs.mapM fun row => ((List.range nFields).zip row).mapM fun p =>
          (conv p.1 p.2).map fun w => (p.1, w)) <;> rfl

/-- **C51** (partial) If the iteration is not aborted by the driver, Scan returns the converted
fields of every row, in order, or the first conversion error; and it fails if the query fails.
Missing: iterations aborted by the driver, see the counterexample. -/
theorem C51_scan_returns_all_rows_partial (conv : Nat → Val → Except Err Val) (nFields nCols : Nat)
    (rows : List (List Val)) (hr : ∀ r ∈ rows, r.length = nCols) (hn : nFields ≤ nCols) :
    scan (.ok ⟨.ok nCols, rows, none⟩) conv nFields
      = (rows.mapM fun row => ((List.range nFields).zip row).mapM fun p =>
          (conv p.1 p.2).map fun w => (p.1, w)) ∧
    ∀ e, scan (.error e) conv nFields = .error e :=
  ⟨scanRows_eq conv nFields nCols rows hr hn, fun _ => rfl⟩

example : scan (.ok ⟨.ok 2, [[.int 0 1, .int 0 2], [.int 0 3, .int 0 4]], none⟩) (fun _ v => .ok v) 1
    = .ok [[(0, .int 0 1)], [(0, .int 0 3)]] := by rfl

/-- **C51** is false: if the driver aborts the iteration after any number of rows with any error,
Scan returns the rows so far without an error. -/
theorem C51_scan_ignores_abort_counterexample (conv : Nat → Val → Except Err Val)
    (columns : Except Err Nat) (nFields : Nat) (rows : List (List Val)) (e : Err) :
    scan (.ok ⟨columns, rows, some e⟩) conv nFields = scan (.ok ⟨columns, rows, none⟩) conv nFields ∧
    scan (.ok ⟨.ok 1, [[.int 0 1]], some e⟩) (fun _ v => .ok v) 1 = .ok [[(0, .int 0 1)]] :=
  ⟨rfl, rfl⟩

/-- **C52** Count sends exactly `SELECT COUNT(1) FROM (<query>) list` with the given arguments and
returns the value of the database, or 0 if there are no rows. -/
theorem C52_count_value (L : GoLib) (db : Str → List Val → CountReply) (query : Str)
    (args : List Val) :
    (∀ n, db (lit "SELECT COUNT(1) FROM (" ++ query ++ lit ") list") args = .value n →
      count L db query args = .ok n) ∧
    (db (lit "SELECT COUNT(1) FROM (" ++ query ++ lit ") list") args = .noRows →
      count L db query args = .ok 0) := by
  constructor
  · intro n h; simp only [count, countQuery, h]
  · intro h; simp only [count, countQuery, h]

/-- **C52** (errors, partial) A database error is returned wrapped, with the interpolated query in its message (or
nothing, if that is an error), provided that the query's bind variables are backed by arguments, none of which is (or
gives) a nil pointer with a method of the type it points to (otherwise Interpolate, called for the error message,
panics). -/
theorem C52_count_error_partial (L : GoLib) (db : Str → List Val → CountReply) (query : Str)
    (args : List Val) (e : Err)
    (h : db (lit "SELECT COUNT(1) FROM (" ++ query ++ lit ") list") args = .err e)
    (hb : ∀ es, parse L (lit "SELECT COUNT(1) FROM (" ++ query ++ lit ") list") = .ok es →
      ∀ st i, Expr.bindVar st i ∈ es → 1 ≤ i ∧ i ≤ args.length)
    (hw : ∀ v ∈ args, ¬ WritingPanics v) :
    ∃ w, count L db query args = .err (.wrap w e) ∧
      (interpolate L rfc3339 (lit "SELECT COUNT(1) FROM (" ++ query ++ lit ") list") args = .ok w ∨
        w = [] ∧ ∃ e', interpolate L rfc3339 (lit "SELECT COUNT(1) FROM (" ++ query ++ lit ") list") args = .err e') := by
  have := C48_interpolate_returns_partial L rfc3339 _ args hb hw
  simp only [count]
  rw [show db (countQuery query) args = .err e from h]
  dsimp only
  rcases this with ⟨t, ht⟩ | ⟨t, ht⟩
  · rw [show interpolate L rfc3339 (countQuery query) args = .ok t from ht]
    exact ⟨t, rfl, .inl ht⟩
  · rw [show interpolate L rfc3339 (countQuery query) args = .err t from ht]
    exact ⟨[], rfl, .inr ⟨rfl, t, ht⟩⟩

/-- **C52** is false for errors in general: Count panics instead of returning the error. -/
theorem C52_count_panics_counterexample (L : GoLib) (e : Err) :
    count L (fun _ _ => .err e) (lit "SELECT $1") [] = .panic .indexOutOfRange ∧
    count L (fun _ _ => .err e) (lit "SELECT $1") [.nilRecv 5] = .panic .nilDereference := by
  constructor <;> kernel_rfl

example (L : GoLib) : count L (fun _ _ => .err (.user (lit "boom") false)) (lit "SELECT $1") [.int 64 7]
    = .err (.wrap (lit "SELECT COUNT(1) FROM (SELECT 7) list") (.user (lit "boom") false)) := by
  kernel_rfl

end Sqlf.Props
