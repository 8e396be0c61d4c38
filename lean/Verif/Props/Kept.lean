import Verif.Proofs.Kept
import Verif.Props.Util
import Verif.Proofs.Api
import Verif.KernelRfl
/-!
# C107: query builders and the slices of the caller

`Select(columns...)`, `GroupBy(columns...)`, `Union(builders...)` and `With(name, builder, deps...)` take slices of
the caller.
-/

namespace Sqlf.Props

open Spec

/-- **C107** (partial) Whatever calls are made with whatever slices, and whatever is assigned to their elements before,
between and after the calls, the query builder is what the calls with the elements at the time of the call make.
Missing: assignments to the dependencies of a CTE, see `C107_deps_counterexample`. -/
theorem C107_kept_partial (grow : Nat → Nat) (m : SQMem) (cs : List Call) (h : History grow m cs) :
    runCalls QB.new cs = .ok (seenNow m) :=
  (history_holds h).2

/-- **C107** (partial) Two query builders with the same calls give the same queries, whatever was assigned. -/
theorem C107_same_queries_partial (L : GoLib) (grow grow' : Nat → Nat) (m m' : SQMem) (cs : List Call) (h : History grow m cs)
    (h' : History grow' m' cs) (style : Style) (heap : List QB) (o : Out (Str × List Val)) :
    Returns L (.qb heap.length) style (heap ++ [seenNow m]) o ↔ Returns L (.qb heap.length) style (heap ++ [seenNow m']) o := by
  have := (C107_kept_partial _ _ _ h).symm.trans (C107_kept_partial _ _ _ h')
  injection this with this
  rw [this]

/-- **C107** (this part holds) No call changes an array of the caller. -/
theorem C107_slices_stay (grow : Nat → Nat) (m : SQMem) (cs : List Call) (h : History grow m cs) (o : QOp) (c : Call)
    (hc : callNow m o = some c) :
    (∀ k ∈ m.mineB, (o.run grow m).blds[k]? = m.blds[k]?) ∧ (∀ k ∈ m.mineN, (o.run grow m).names[k]? = m.names[k]?) := by
  obtain ⟨h1, h2⟩ := call_frame (grow := grow) (history_holds h).1 o (by rw [hc]; rfl)
  exact ⟨h1, fun k hk => h2 k (history_names h k hk)⟩

/-- The steps one after the other. -/
private def runOps (grow : Nat → Nat) (os : List QOp) : SQMem := os.foldl (QOp.run grow) .new

private def col (n : String) : Builder := tableColumn (lit "t") (lit n)

private def busy : List QOp :=
  [.arrayB [col "a", col "b", col "c"], .select (.spread ⟨0, 0, 2, 3⟩), .assignB 0 0 (col "x"),
   .groupBy (.spread ⟨0, 1, 1, 2⟩), .assignB 0 1 (col "y"), .other (.from_ ⟨lit "t", []⟩), .groupBy (.listed [col "z"]),
   .arrayN [lit "d", lit "e"], .with_ (lit "c") (.frag (.F (lit "SELECT 1"))) (.spread ⟨0, 0, 1, 2⟩), .assignN 0 1 (lit "f")]

private def busyCalls : List Call :=
  [.select [col "a", col "b"], .groupBy [col "b"], .from_ ⟨lit "t", []⟩, .groupBy [col "z"],
   .with_ (lit "c") (.frag (.F (lit "SELECT 1"))) [lit "d"]]

/-- Elements are assigned after `Select` and `GroupBy`, and one behind the dependencies: the query does not change. -/
example (L : GoLib) : History (fun _ => 3) (runOps (fun _ => 3) busy) busyCalls ∧
    Returns L (.qb 0) question [seenNow (runOps (fun _ => 3) busy)]
      (.ok (lit "SELECT t.a, t.b FROM t GROUP BY t.b, t.z", [])) := by
  refine ⟨?_, returns_of_buildQuery (n := 200) (by kernel_rfl) (by simp)⟩
  have hb : ∀ {A : List (List Builder)} {s : Slice}, s.off + s.cap = 3 → s.len ≤ s.cap → A[s.arr]?.map List.length = some 3 →
      InBounds A s := by
    intro A s h1 h2 h3
    refine ⟨h2, fun _ => ?_⟩
    cases h4 : A[s.arr]? with
    | none => rw [h4] at h3; cases h3
    | some a =>
      rw [h4] at h3
      simp only [Option.map_some, Option.some.injEq] at h3
      exact ⟨a, rfl, by omega⟩
  have h1 := History.step (grow := fun _ => 3) busy[0] .start trivial
  have h2 := h1.step busy[1] ⟨hb rfl (by decide) rfl, fun _ => by decide +kernel⟩
  have h3 := h2.step busy[2] trivial
  have h4 := h3.step busy[3] ⟨hb rfl (by decide) rfl, fun _ => by decide +kernel⟩
  have h5 := h4.step busy[4] trivial
  have h6 := h5.step busy[5] ⟨trivial, _, rfl⟩
  have h7 := h6.step busy[6] trivial
  have h8 := h7.step busy[7] trivial
  have h9 := h8.step busy[8] ⟨⟨by decide, fun _ => ⟨_, rfl, by decide⟩⟩, fun _ => by decide +kernel⟩
  refine h9.step busy[9] ?_
  intro c hc
  rcases List.mem_singleton.1 hc with rfl
  rintro ⟨-, -, h⟩
  exact absurd h (by decide)

private def depsOps : List QOp :=
  [.other (.from_ ⟨lit "c", lit "x"⟩), .select (.listed [tableColumn (lit "x") (lit "id")]),
   .with_ (lit "d") (.frag (.F (lit "SELECT 1"))) (.listed []), .arrayN [lit "d"],
   .with_ (lit "c") (.frag (.F (lit "SELECT * FROM d"))) (.spread ⟨1, 0, 1, 1⟩)]

/-- **C107** is false of the code for dependencies: after `deps[0] = "e"` the query has lost a CTE. -/
theorem C107_deps_counterexample (L : GoLib) : ∃ (os : List QOp) (x : Str) (cs : List Call),
    History (fun _ => 0) (os.foldl (QOp.run fun _ => 0) .new) cs ∧
    Returns L (.qb 0) question [seenNow (os.foldl (QOp.run fun _ => 0) .new)]
      (.ok (lit "With d AS (SELECT 1), c AS (SELECT * FROM d) SELECT x.id FROM c AS x", [])) ∧
    Returns L (.qb 0) question [seenNow ((os ++ [QOp.assignN 1 0 x]).foldl (QOp.run fun _ => 0) .new)]
      (.ok (lit "With c AS (SELECT * FROM d) SELECT x.id FROM c AS x", [])) := by
  have h1 := History.step (grow := fun _ => 0) depsOps[0] .start ⟨trivial, _, rfl⟩
  have h2 := h1.step depsOps[1] trivial
  have h3 := h2.step depsOps[2] trivial
  have h4 := h3.step depsOps[3] trivial
  have h5 := h4.step depsOps[4] ⟨⟨by decide, fun _ => ⟨_, rfl, by decide⟩⟩, fun _ => by decide +kernel⟩
  exact ⟨depsOps, lit "e", _, h5, returns_of_buildQuery (n := 200) (by kernel_rfl) (by simp),
    returns_of_buildQuery (n := 200) (by kernel_rfl) (by simp)⟩

end Sqlf.Props
