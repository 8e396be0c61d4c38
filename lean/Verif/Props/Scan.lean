import Verif.Model.Scan
import Verif.Props.Util
import Verif.Props.Query
import Verif.Props.Interpolate
import Verif.Proofs.HeapSim
import Verif.KernelRfl
/-!
# C92: what ScanBuilder and CountBuilder send

`(o, sent)`: the result of the call and the queries, with their arguments, sent to the database.  `From some
fuel on` is the evaluator's way to say that the call returns.
-/

namespace Sqlf.Props

open Spec

/-- The model of a call stops with `r`. -/
def EndsWith (f : Nat → α) (r : α) : Prop := ∃ N, ∀ n, N ≤ n → f n = r

/-- **C52** Exactly when Count panics: if the database answers with an error and filling in the query it was sent, for
the text of the error, gets to a placeholder without argument, or with a nil pointer with a method of the type it
points to. -/
theorem C52_count_panics_iff (L : GoLib) (db : Str → List Val → CountReply) (query : Str) (args : List Val) :
    (∃ p, count L db query args = .panic p) ↔
      (∃ e, db (lit "SELECT COUNT(1) FROM (" ++ query ++ lit ") list") args = .err e) ∧
      ∃ es, readTemplate L (lit "SELECT COUNT(1) FROM (" ++ query ++ lit ") list") = some es ∧
        GetsTo L rfc3339 args (FillingPanics args) es := by
  rw [← C48_interpolate_panics_iff_partial]
  show _ ↔ (∃ e, db (countQuery query) args = .err e) ∧ ∃ p, interpolate L rfc3339 (countQuery query) args = .panic p
  unfold count
  cases hd : db (countQuery query) args with
  | value n => simp
  | noRows => simp
  | err e => cases hi : interpolate L rfc3339 (countQuery query) args <;> simp

/-- **C52** If it does not panic, an error of the database is returned, wrapped with the query filled in, or with nothing
if the query cannot be filled in. -/
theorem C52_count_wraps_errors (L : GoLib) (db : Str → List Val → CountReply) (query : Str) (args : List Val) (e : Err)
    (h : db (lit "SELECT COUNT(1) FROM (" ++ query ++ lit ") list") args = .err e)
    (hp : ∀ p, count L db query args ≠ .panic p) :
    (∀ es w, readTemplate L (lit "SELECT COUNT(1) FROM (" ++ query ++ lit ") list") = some es →
      Filled L rfc3339 args es w → count L db query args = .err (.wrap w e)) ∧
    ((∀ es w, readTemplate L (lit "SELECT COUNT(1) FROM (" ++ query ++ lit ") list") = some es →
      ¬ Filled L rfc3339 args es w) → count L db query args = .err (.wrap [] e)) := by
  have hi := C47_interpolate_fills_in L rfc3339 (countQuery query) args
  have hd : db (countQuery query) args = .err e := h
  show (∀ es w, readTemplate L (countQuery query) = some es → _) ∧ ((∀ es w, readTemplate L (countQuery query) = some es → _) → _)
  constructor
  · intro es w hr hf
    unfold count
    rw [hd]
    dsimp only
    rw [(hi w).2 ⟨es, hr, hf⟩]
  · intro hn
    unfold count at hp ⊢
    rw [hd] at hp ⊢
    dsimp only at hp ⊢
    cases ht : interpolate L rfc3339 (countQuery query) args with
    | ok w =>
      obtain ⟨es, hr, hf⟩ := (hi w).1 ht
      exact absurd hf (hn es w hr)
    | err e' => rfl
    | panic p => rw [ht] at hp; exact absurd rfl (hp p)
    | oof => exact absurd ht (interpolate_not_oof L rfc3339 (countQuery query) args)

/-- An error of the database about a query with a placeholder, and about one that is no template. -/
example (L : GoLib) : count L (fun _ _ => .err (.user (lit "boom") false)) (lit "SELECT ?") [.int 64 7]
      = .err (.wrap (lit "SELECT COUNT(1) FROM (SELECT 7) list") (.user (lit "boom") false)) ∧
    count L (fun _ _ => .err (.user (lit "boom") false)) (lit "SELECT #") [] = .err (.wrap [] (.user (lit "boom") false)) := by
  constructor <;> kernel_rfl

/-- **C51** If a row has less columns than there are fields to fill, Scan fails. -/
theorem C51_scan_too_few_columns (conv : Nat → Val → Except Err Val) (nFields nCols : Nat) (aborted : Option Err)
    (rows : List (List Val)) (hr : ∀ r ∈ rows, r.length = nCols) (hn : nCols < nFields) :
    (∃ e, scan (.ok ⟨.ok nCols, rows, aborted⟩) conv nFields = .error e) ↔ rows ≠ [] := by
  cases rows with
  | nil => simp [scan, scanRows]
  | cons r rows =>
    obtain ⟨e, he⟩ := C50_scanRow_too_few_columns conv (List.range nFields) r (by rw [hr r (by simp)]; simp; omega)
    rw [hr r (by simp)] at he
    simp [scan, scanRows, he]

/-- One column for two fields. -/
example : ∃ e, scan (.ok ⟨.ok 1, [[.int 0 1]], none⟩) (fun _ v => .ok v) 2 = .error e :=
  (C51_scan_too_few_columns _ 2 1 none [[.int 0 1]] (by simp) (by omega)).2 (by simp)

/-- **C92** If BuildQuery returns a query and arguments, ScanBuilder sends exactly these, once, and returns what Scan
makes of the answer. -/
theorem C92_scan_sends_the_query (L : GoLib) (db : Str → List Val → Except Err Rows) (conv : Nat → Val → Except Err Val)
    (nFields : Nat) (b : Builder) (style : Style) (heap : List QB) (q : Str) (as : List Val)
    (h : Returns L b style heap (.ok (q, as))) :
    (∀ rows, scan (db q as) conv nFields = .ok rows →
      EndsWith (fun n => scanBuilder L n db conv nFields b style heap) (.ok rows, [(q, as)])) ∧
    (∀ e, scan (db q as) conv nFields = .error e →
      EndsWith (fun n => scanBuilder L n db conv nFields b style heap) (.err e, [(q, as)])) := by
  obtain ⟨-, N, h⟩ := h
  refine ⟨fun rows hr => ⟨N, fun n hn => ?_⟩, fun e he => ⟨N, fun n hn => ?_⟩⟩
  · dsimp only
    unfold scanBuilder
    rw [h n hn]
    simp only [hr, Out.ofExcept]
  · dsimp only
    unfold scanBuilder
    rw [h n hn]
    simp only [he, Out.ofExcept]

/-- **C92** If BuildQuery returns a query and arguments, CountBuilder sends exactly
`SELECT COUNT(1) FROM (<query>) list` with these arguments, once, and returns the number the database answers, or 0
for no rows. -/
theorem C92_count_sends_the_query (L : GoLib) (db : Str → List Val → CountReply) (b : Builder) (style : Style)
    (heap : List QB) (q : Str) (as : List Val) (h : Returns L b style heap (.ok (q, as))) :
    (∀ k, db (lit "SELECT COUNT(1) FROM (" ++ q ++ lit ") list") as = .value k →
      EndsWith (fun n => countBuilder L n db b style heap) (.ok k, [(lit "SELECT COUNT(1) FROM (" ++ q ++ lit ") list", as)])) ∧
    (db (lit "SELECT COUNT(1) FROM (" ++ q ++ lit ") list") as = .noRows →
      EndsWith (fun n => countBuilder L n db b style heap) (.ok 0, [(lit "SELECT COUNT(1) FROM (" ++ q ++ lit ") list", as)])) := by
  obtain ⟨-, N, h⟩ := h
  refine ⟨fun k hk => ⟨N, fun n hn => ?_⟩, fun he => ⟨N, fun n hn => ?_⟩⟩
  · dsimp only
    unfold countBuilder
    rw [h n hn]
    dsimp only
    rw [(C52_count_value L db q as).1 k hk]
    rfl
  · dsimp only
    unfold countBuilder
    rw [h n hn]
    dsimp only
    rw [(C52_count_value L db q as).2 he]
    rfl

/-- **C92** If BuildQuery fails (or panics), both fail in the same way and send nothing. -/
theorem C92_nothing_is_sent (L : GoLib) (b : Builder) (style : Style) (heap : List QB) (o : Out (Str × List Val))
    (h : Returns L b style heap o) (ho : ∀ r, o ≠ .ok r) (db : Str → List Val → Except Err Rows)
    (db' : Str → List Val → CountReply) (conv : Nat → Val → Except Err Val) (nFields : Nat) :
    (∃ o1, EndsWith (fun n => scanBuilder L n db conv nFields b style heap) (o1, []) ∧
      (∀ e, o = .err e → o1 = .err e) ∧ (∀ p, o = .panic p → o1 = .panic p)) ∧
    (∃ o2, EndsWith (fun n => countBuilder L n db' b style heap) (o2, []) ∧
      (∀ e, o = .err e → o2 = .err e) ∧ (∀ p, o = .panic p → o2 = .panic p)) := by
  obtain ⟨hne, N, h⟩ := h
  cases o with
  | ok r => exact absurd rfl (ho r)
  | oof => exact absurd rfl hne
  | err e =>
    refine ⟨⟨.err e, ⟨N, fun n hn => ?_⟩, by simp, by simp⟩, ⟨.err e, ⟨N, fun n hn => ?_⟩, by simp, by simp⟩⟩
    · dsimp only; unfold scanBuilder; rw [h n hn]
    · dsimp only; unfold countBuilder; rw [h n hn]
  | panic p =>
    refine ⟨⟨.panic p, ⟨N, fun n hn => ?_⟩, by simp, by simp⟩, ⟨.panic p, ⟨N, fun n hn => ?_⟩, by simp, by simp⟩⟩
    · dsimp only; unfold scanBuilder; rw [h n hn]
    · dsimp only; unfold countBuilder; rw [h n hn]

/-- **C92** The result depends on the database only through its answer to that one query. -/
theorem C92_one_answer_is_used (L : GoLib) (db db' : Str → List Val → Except Err Rows) (conv : Nat → Val → Except Err Val)
    (nFields : Nat) (b : Builder) (style : Style) (heap : List QB) (fuel : Nat)
    (h : ∀ q as, (q, as) ∈ (scanBuilder L fuel db conv nFields b style heap).2 → db' q as = db q as) :
    scanBuilder L fuel db' conv nFields b style heap = scanBuilder L fuel db conv nFields b style heap := by
  unfold scanBuilder at *
  cases hb : buildQuery L fuel b style heap with
  | ok r =>
    obtain ⟨q, as⟩ := r
    rw [hb] at h
    have := h q as (List.mem_singleton.2 rfl)
    simp only [this]
  | err e => rfl
  | panic p => rfl
  | oof => rfl

/-- **C92** The same for CountBuilder. -/
theorem C92_one_answer_is_counted (L : GoLib) (db db' : Str → List Val → CountReply) (b : Builder) (style : Style)
    (heap : List QB) (fuel : Nat) (h : ∀ q as, (q, as) ∈ (countBuilder L fuel db b style heap).2 → db' q as = db q as) :
    countBuilder L fuel db' b style heap = countBuilder L fuel db b style heap := by
  unfold countBuilder at *
  cases hb : buildQuery L fuel b style heap with
  | ok r =>
    obtain ⟨q, as⟩ := r
    rw [hb] at h
    have := h _ as (List.mem_singleton.2 rfl)
    simp only [count, this]
  | err e => rfl
  | panic p => rfl
  | oof => rfl

/-- A database that knows one query: the query is built and its two rows are scanned. -/
example (L : GoLib) : EndsWith (fun n => scanBuilder L n
      (fun q as => if q = lit "SELECT a, b FROM t WHERE c = $1" ∧ as.length = 1 then .ok ⟨.ok 2, [[.int 0 1, .int 0 2], [.int 0 3, .int 0 4]], none⟩
        else .error (.user (lit "boom") false)) (fun _ v => .ok v) 1
      (.frag (.Fa (lit "SELECT a, b FROM t WHERE c = ?") [.int 64 7])) dollar [])
    (.ok [[(0, .int 0 1)], [(0, .int 0 3)]], [(lit "SELECT a, b FROM t WHERE c = $1", [.int 64 7])]) := by
  have h : Returns L (.frag (.Fa (lit "SELECT a, b FROM t WHERE c = ?") [.int 64 7])) dollar []
      (.ok (lit "SELECT a, b FROM t WHERE c = $1", [.int 64 7])) := returns_of_buildQuery (n := 200) (by kernel_rfl) (by simp)
  exact (C92_scan_sends_the_query L _ _ 1 _ _ _ _ _ h).1 _ (by kernel_rfl)

/-- The full query builder is counted. -/
example (L : GoLib) : ∃ sent, EndsWith (fun n => countBuilder L n (fun _ _ => .value 42) (.qb 0) question [fullQB]) (.ok 42, sent) ∧
    sent.map (·.2) = [[.int 64 7, .int 64 18, .int 64 1, .int 64 2]] :=
  ⟨_, (C92_count_sends_the_query L _ _ _ _ _ _ (fullQB_returns L)).1 42 rfl, rfl⟩

/-- A fragment that cannot be built. -/
example (L : GoLib) : Returns L (.frag (.F (lit "?"))) question [] (.err (.wrap (lit "?") (.bindVarIndex 1))) :=
  returns_of_buildQuery (n := 200) (by kernel_rfl) (by simp)

end Sqlf.Props
