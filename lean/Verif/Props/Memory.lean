import Verif.Props.Query
import Verif.Proofs.Api
import Verif.Proofs.Pointers
/-!
# C85, C86: fragments in memory

The model of these properties is Model/Memory.lean: fragments are objects behind pointers, and their
`Args` and `Fragments` are slices of arrays that other slices may share.
-/

namespace Sqlf.Props

open Spec

/-! ## C85 -/

/-- **C85** (partial: the code does not meet the full claim, see `C85_shared_array_counterexample`)
With every growth of `append` and after every history of calls of which the slices given as `xs...`
share no spare room with those of the fragments, a call that makes or changes a fragment does to the contents of
all fragments what it says, with its arguments listed, and nothing else. -/
theorem C85_calls_do_what_they_say_partial (grow : Nat → Nat) {m : SMem} (hm : ReachedMem grow m) (o : SOp) (ho : Careful m o) :
    contents (o.run grow m) = (elementsOf m o).run (contents m) := (slices_step grow hm.inv o ho).2

private theorem run_other (o : FOp) (objs : List PFragment) (q : Nat) (hq : q < objs.length) (h : changed o ≠ some q) :
    (o.run objs)[q]? = objs[q]? := by
  cases o with
  | new raw as fs => simp only [FOp.run]; rw [List.getElem?_append_left hq]
  | _ =>
    simp only [FOp.run, changed, ne_eq, Option.some.injEq] at h ⊢
    rw [List.getElem?_modify]
    simp [h]

/-- **C85** (partial) Such a call leaves the contents of every other fragment as they are. -/
theorem C85_others_stay_partial (grow : Nat → Nat) {m : SMem} (hm : ReachedMem grow m) (o : SOp) (ho : Careful m o) (q : Nat) (hq : q < m.objs.length)
    (h : changed (elementsOf m o) ≠ some q) : (contents (o.run grow m))[q]? = (contents m)[q]? := by
  rw [C85_calls_do_what_they_say_partial grow hm o ho]
  exact run_other _ _ q (by simpa [contents] using hq) h

private theorem elements_asListed (m : SMem) (o : FOp) : elementsOf m (asListed o) = o := by cases o <;> rfl

private theorem careful_asListed (m : SMem) (o : FOp) : Careful m (asListed o) := by
  cases o <;> simp [asListed, Careful, NotShared]

private theorem histories (grow : Nat → Nat) : ∀ (os : List FOp) {m : SMem}, ReachedMem grow m →
    contents ((os.map asListed).foldl (SOp.run grow) m) = os.foldl FOp.run (contents m)
  | [], _, _ => rfl
  | o :: os, m, hm => by
    simp only [List.map_cons, List.foldl_cons]
    have hc := careful_asListed m o
    rw [histories grow os (.call hm hc), C85_calls_do_what_they_say_partial grow hm _ hc, elements_asListed]

/-- **C85** (partial) Whatever the growth of `append`: after any calls with listed arguments the
contents of the fragments are those that the calls give when every fragment has lists of its own. -/
theorem C85_listed_histories_partial (grow : Nat → Nat) (os : List FOp) :
    contents ((os.map asListed).foldl (SOp.run grow) ⟨[], [], []⟩) = os.foldl FOp.run [] := histories grow os .start

/-- `f1 := Fa("…", 1, 2, 3).AppendArgs(4)`; `f2 := Fa("…", f1.Args...)`; `f1.AppendArgs(5)`; `f2.AppendArgs(6)` -/
def sharedArgs : List SOp :=
  [.new (lit "#join('#arg', ',')") (.listed [.int 64 1, .int 64 2, .int 64 3]) (.listed []), .appendArgs 0 (.listed [.int 64 4]),
    .new (lit "#join('#arg', ';')") (.spread ⟨1, 0, 4, 6⟩) (.listed []), .appendArgs 0 (.listed [.int 64 5]), .appendArgs 1 (.listed [.int 64 6])]

/-- The slice that is spread above is that of `f1` if a new array of 4 has room for 2 more, as it has in Go. -/
example (grow : Nat → Nat) (hg : grow 4 = 2) : (((sharedArgs.take 2).foldl (SOp.run grow) ⟨[], [], []⟩).objs.map (·.args)) = [⟨1, 0, 4, 6⟩] := by
  simp [sharedArgs, SOp.run, Given.slice, Given.elems, Slice.alloc, Slice.append, Slice.read, hg]

/-- **C85** is false of the code: a fragment that was given the `Args` of another one shares its array, and
`f2.AppendArgs(6)` changes the arguments of `f1`. -/
theorem C85_shared_array_counterexample (grow : Nat → Nat) (hg : grow 4 = 2) :
    (contents ((sharedArgs.take 4).foldl (SOp.run grow) ⟨[], [], []⟩)).map (·.args) =
        [[.int 64 1, .int 64 2, .int 64 3, .int 64 4, .int 64 5], [.int 64 1, .int 64 2, .int 64 3, .int 64 4]] ∧
      (contents (sharedArgs.foldl (SOp.run grow) ⟨[], [], []⟩)).map (·.args) =
        [[.int 64 1, .int 64 2, .int 64 3, .int 64 4, .int 64 6], [.int 64 1, .int 64 2, .int 64 3, .int 64 4, .int 64 6]] := by
  simp [sharedArgs, SOp.run, Given.slice, Given.elems, Slice.alloc, Slice.append, Slice.read, contents, overwrite, hg]

/-- A history that meets the hypotheses, with slices that are spread: with `xs` an array of 6, `f1 := Fa("…", xs[:2:4]...)`,
`f2 := Fa("…", xs[4:5]...)`. -/
example (grow : Nat → Nat) (xs : List Val) (hx : xs.length = 6) :
    ReachedMem grow ((SOp.new (lit "#arg1") (.spread ⟨0, 0, 2, 4⟩) (.listed [])).run grow ⟨[xs], [], []⟩) ∧
    Careful ((SOp.new (lit "#arg1") (.spread ⟨0, 0, 2, 4⟩) (.listed [])).run grow ⟨[xs], [], []⟩) (.new (lit "#arg1") (.spread ⟨0, 4, 1, 2⟩) (.listed [])) := by
  constructor
  · exact .call (.array xs .start) (by simp [Careful, NotShared, InBounds, hx])
  · simp [Careful, NotShared, InBounds, SpareFree, SOp.run, Given.slice, hx]

/-! ## C86 -/

/-- **C86** (partial: see `C86_on_is_changed_counterexample`) A call of a query builder changes nothing of any
fragment but the prefix of the ON fragment it is given, which becomes `ON`. -/
theorem C86_only_the_on_prefix_partial (objs objs' : List PFragment) (b b' : PQB) (c : PCall) (h : c.run objs b = .ok (objs', b')) (p : Nat) :
    objs'[p]? = objs[p]?.map fun o => if onFragment c = some p then { o with pre := lit "ON" } else o := by
  have hsame : objs' = objs → onFragment c ≠ some p → objs'[p]? = objs[p]?.map fun o => if onFragment c = some p then { o with pre := lit "ON" } else o := by
    rintro rfl hn
    simp [hn]
  have hjoin : ∀ (js : Str) (t : TableAliased) (on : Option Nat) (opt : Bool), b.join objs js t on opt = .ok (objs', b') →
      (onFragment c = if t.name = [] then none else on) → objs'[p]? = objs[p]?.map fun o => if onFragment c = some p then { o with pre := lit "ON" } else o := by
    intro js t on opt hj hon
    unfold PQB.join at hj
    by_cases hn : t.name = []
    · rw [if_pos hn] at hj
      cases hj
      rw [hon]
      simp [hn]
    · rw [if_neg hn] at hj
      cases on with
      | none => cases hj
      | some q =>
        have : objs' = objs.modify q fun o => { o with pre := lit "ON" } := by
          dsimp only at hj
          split at hj <;> (cases hj; rfl)
        rw [this, List.getElem?_modify, hon]
        simp [hn]
  cases c with
  | join k t on => exact hjoin _ t on _ h rfl
  | crossJoin t => exact hjoin (lit "CROSS JOIN") t none false h (by simp [onFragment])
  | whereIn c v => simp only [PCall.run] at h; split at h <;> cases h; exact hsame rfl (by simp [onFragment])
  | whereNotIn c v => simp only [PCall.run] at h; split at h <;> cases h; exact hsame rfl (by simp [onFragment])
  | where_ q => cases q <;> cases h <;> exact hsame rfl (by simp [onFragment])
  | _ => cases h; exact hsame rfl (by simp [onFragment])

/-- **C86** (partial) In a program that changes no fragment after it became part of something else, pointers are as
good as copies: it panics when the program panics that gives copies of the fragments to every call, and otherwise all its
fragments and query builders stand for those of that program. -/
theorem C86_pointers_are_like_copies_partial (cs : List Stmt) (hd : Disciplined ⟨[], []⟩ [] cs) (o : Out VMem) (hc : copyStmts ⟨[], []⟩ cs = some o) :
    Agree (runStmts ⟨[], []⟩ cs) o := by
  have h0 : Sim ⟨[], []⟩ ⟨[], []⟩ [] := ⟨rfl, by simp, fun p o h => by simp at h, fun p f h => by simp at h, .nil⟩
  have := h0.run hd hc
  revert this
  generalize runStmts ⟨[], []⟩ cs = x
  intro this
  cases this with
  | err e => rfl
  | panic p => rfl
  | oof => trivial
  | ok h =>
    obtain ⟨used, h⟩ := h
    exact ⟨h.len, h.frags, Pointwise.imp h.qbs fun _ _ _ hr => hr.1⟩

/-- **C86** What pointers stand for is unique. -/
theorem C86_meaning_is_unique (objs : List PFragment) (b : PQB) (q q' : QB) (h : MeansQ objs b q) (h' : MeansQ objs b q') : q = q' :=
  meansQ_unique h h'

private theorem made_set {L : GoLib} {qs : List QB} (h : ∀ (r : Nat) (q : QB), qs[r]? = some q → ∃ cs, Made L cs q) (r : Nat) (q : QB) (hq : ∃ cs, Made L cs q) :
    ∀ (k : Nat) (q' : QB), (qs.set r q)[k]? = some q' → ∃ cs, Made L cs q' := by
  intro k q' hk
  rw [List.getElem?_set] at hk
  split at hk
  · split at hk
    · cases hk; exact hq
    · cases hk
  · exact h k q' hk

private theorem copies_made (L : GoLib) : ∀ (cs : List Stmt) (v v' : VMem), (∀ (r : Nat) (q : QB), v.qbs[r]? = some q → ∃ cs, Made L cs q) →
    copyStmts v cs = some (.ok v') → ∀ (r : Nat) (q : QB), v'.qbs[r]? = some q → ∃ cs, Made L cs q
  | [], _, _, h, e => by cases e; exact h
  | c :: cs, v, v', h, e => by
    simp only [copyStmts] at e
    cases hs : copyStmt v c with
    | none => rw [hs] at e; cases e
    | some o =>
      rw [hs] at e
      cases o with
      | err x => cases e
      | panic p => cases e
      | oof => cases e
      | ok v1 =>
        refine copies_made L cs v1 v' ?_ e
        cases c with
        | frag f =>
          simp only [copyStmt, Option.map_eq_some_iff] at hs
          obtain ⟨env, -, hs⟩ := hs
          cases hs
          exact h
        | newQB =>
          cases hs
          intro r q hq
          by_cases hlt : r < v.qbs.length
          · rw [List.getElem?_append_left hlt] at hq
            exact h r q hq
          · have hge : v.qbs.length ≤ r := by omega
            rw [List.getElem?_append_right hge] at hq
            cases hk : r - v.qbs.length with
            | zero => rw [hk] at hq; cases hq; exact ⟨[], .new⟩
            | succ k => rw [hk] at hq; simp at hq
        | call r c =>
          simp only [copyStmt] at hs
          split at hs
          · next q c' hq hc' =>
            cases ha : c'.apply q with
            | ok q' =>
              rw [ha] at hs
              cases hs
              obtain ⟨cs0, hm⟩ := h r q hq
              exact made_set h r q' ⟨_, .call hm ha⟩
            | err x => rw [ha] at hs; cases hs
            | panic x => rw [ha] at hs; cases hs
            | oof => rw [ha] at hs; cases hs
          · cases hs

/-- **C86** The query builders that such a program makes are among those that the theorems about query builders
speak about: each was made by calls. -/
theorem C86_made_by_calls (L : GoLib) (cs : List Stmt) (v : VMem) (hc : copyStmts ⟨[], []⟩ cs = some (.ok v)) (r : Nat) (q : QB)
    (hq : v.qbs[r]? = some q) : ∃ calls, Made L calls q :=
  copies_made L cs ⟨[], []⟩ v (fun r q h => by simp at h) hc r q hq

/-- `on := F("u.id=o.uid")`; a column `id` that is used four times:
`q.Select(id).From(users).LeftJoin(orders, on).GroupBy(id).OrderBy(id, Desc).Where(cond)` -/
def sharedColumn : List Stmt :=
  [.frag (.new (lit "u.id=o.uid") [] []), .frag (.new (lit "u.id") [] []), .frag (.new (lit "#f1>$1") [.int 64 7] [.column (lit "u") 1]), .newQB,
    .call 0 (.select [.column (lit "u") 1]), .call 0 (.from_ ⟨lit "users", lit "u"⟩), .call 0 (.join .left ⟨lit "orders", lit "o"⟩ (some 0)),
    .call 0 (.groupBy [.column (lit "u") 1]), .call 0 (.orderBy (.column (lit "u") 1) 1), .call 0 (.where_ (some 2))]

/-- The rule for one statement, as a check. -/
def allowedCheck (m : VMem) (used : List Nat) : Stmt → Bool
  | .frag o => match changed o with
    | some p => !used.contains p && !(usedByOp o).contains p
    | none => true
  | .newQB => true
  | .call _ c => match onFragment c with
    | some p => !used.contains p || match m.frags[p]? with
      | some f => f.pre == lit "ON"
      | none => true
    | none => true

/-- The rule, as a check. -/
def disciplinedCheck : VMem → List Nat → List Stmt → Bool
  | _, _, [] => true
  | m, used, c :: cs => allowedCheck m used c && match copyStmt m c with
    | some (.ok m') => disciplinedCheck m' (used ++ usedBy c) cs
    | _ => true

private theorem allowed_of (m : VMem) (used : List Nat) (c : Stmt) (h : allowedCheck m used c = true) : Allowed m used c := by
  cases c with
  | frag o =>
    intro p hp
    simp only [allowedCheck, hp] at h
    simpa using h
  | newQB => trivial
  | call r c =>
    intro p hp hu f hf
    simp only [allowedCheck, hp, hf] at h
    simpa [hu] using h

private theorem disciplined_of : ∀ (cs : List Stmt) (m : VMem) (used : List Nat), disciplinedCheck m used cs = true → Disciplined m used cs
  | [], _, _, _ => trivial
  | c :: cs, m, used, h => by
    rw [disciplinedCheck, Bool.and_eq_true] at h
    refine ⟨allowed_of m used c h.1, fun m' hm' => ?_⟩
    have h2 := h.2
    rw [hm'] at h2
    exact disciplined_of cs m' _ h2

/-- It meets the hypotheses above, and its query builder stands for one that returns the query one expects. -/
example : Disciplined ⟨[], []⟩ [] sharedColumn := disciplined_of _ _ _ (by decide +kernel)

/-- The query builder of the program with copies. -/
def copiedQB : QB :=
  match copyStmts ⟨[], []⟩ sharedColumn with
  | some (.ok v) => v.qbs.getD 0 .new
  | _ => .new

example : ∃ v, copyStmts ⟨[], []⟩ sharedColumn = some (.ok v) ∧ v.qbs = [copiedQB] := ⟨_, rfl, rfl⟩

example (L : GoLib) : Returns L (.qb 0) dollar [copiedQB]
    (.ok (lit "SELECT u.id FROM users AS u LEFT JOIN orders AS o ON u.id=o.uid WHERE u.id>$1 GROUP BY u.id ORDER BY u.id ASC NULLS FIRST", [.int 64 7])) :=
  returns_of_buildQuery (n := 200) (by kernel_rfl) (by simp)

/-- `on := F("u.id=o.uid")`; `q.Select(…).From(users).InnerJoin(orders, on).Where(on)` -/
def reusedOn : List Stmt :=
  [.frag (.new (lit "u.id=o.uid") [] []), .newQB, .call 0 (.select [.plain (exprColumn (some (.mk (lit "1") [] [] [] [])))]), .call 0 (.from_ ⟨lit "users", lit "u"⟩),
    .call 0 (.join .inner ⟨lit "orders", lit "o"⟩ (some 0)), .call 0 (.where_ (some 0))]

/-- The same with `Where(on)` before the join. -/
def reusedBefore : List Stmt :=
  [.frag (.new (lit "u.id=o.uid") [] []), .newQB, .call 0 (.select [.plain (exprColumn (some (.mk (lit "1") [] [] [] [])))]), .call 0 (.from_ ⟨lit "users", lit "u"⟩),
    .call 0 (.where_ (some 0)), .call 0 (.join .inner ⟨lit "orders", lit "o"⟩ (some 0))]

/-- The query builder that the first of them makes. -/
def reusedQB : QB :=
  match copyStmts ⟨[], []⟩ reusedOn with
  | some (.ok v) => v.qbs.getD 0 .new
  | _ => .new

/-- **C86** is false of the code: `InnerJoin` sets the prefix of the fragment it is given, and a condition that is
also given to `Where`, before or after, reads `WHERE ON …`. -/
theorem C86_on_is_changed_counterexample (L : GoLib) :
    ∃ m b, runStmts ⟨[], []⟩ reusedOn = .ok m ∧ runStmts ⟨[], []⟩ reusedBefore = .ok m ∧ m.objs.map (·.pre) = [lit "ON"] ∧ m.qbs = [b] ∧
      MeansQ m.objs b reusedQB ∧
      Returns L (.qb 0) dollar [reusedQB] (.ok (lit "SELECT 1 FROM users AS u INNER JOIN orders AS o ON u.id=o.uid WHERE ON u.id=o.uid", [])) := by
  have h := C86_pointers_are_like_copies_partial reusedOn (disciplined_of _ _ _ (by decide +kernel)) _ rfl
  refine ⟨_, _, rfl, rfl, rfl, rfl, ?_, returns_of_buildQuery (n := 200) (by kernel_rfl) (by simp)⟩
  exact getBoth h.2.2 (k := 0) rfl rfl

end Sqlf.Props
