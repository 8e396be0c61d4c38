import Verif.Proofs.Lockstep
/-!
# C97: argument values influence nothing but the argument list
-/

namespace Sqlf.Props

open Sqlf Spec

private theorem init_like {R : Val → Val → Prop} {style : Style} (hR : style = dollar → Compat R) {heap heap' : List QB}
    (h : Pointwise (QBLike R) heap heap') : StLike R (St.init style heap) (St.init style heap') :=
  ⟨⟨rfl, .nil, .nil⟩, fun hd => hR (by simpa [St.init, Store.new] using hd), rfl, rfl, h, rfl⟩

/-- A build and the build with other values. -/
private theorem build_like (L : GoLib) {R : Val → Val → Prop} {style : Style} (hR : style = dollar → Compat R) {b b' : Builder}
    (hb : SameQ R b b') {heap heap' : List QB} (hh : Pointwise (QBLike R) heap heap') {r : Out Str × St}
    (h : BuildsTo L rootCtx b (St.init style heap) r) :
    ∃ r', BuildsTo L rootCtx b' (St.init style heap') r' ∧ OutLike Eq r.1 r'.1 ∧ StLike R r.2 r'.2 := by
  obtain ⟨hne, N, hN⟩ := h
  obtain ⟨h1, h2⟩ := run_like L N _ _ (.build b) (.build b') (rootCtx_like R) hb _ _ (init_like hR hh)
  rw [hN N (Nat.le_refl _)] at h1 h2
  refine ⟨_, buildsTo_of_run rfl ?_, h1, h2⟩
  intro ho
  rw [ho] at h1
  cases hr : r.1 <;> rw [hr] at h1 <;> simp only [OutLike] at h1
  exact hne hr

private theorem queryOut_like {R : Val → Val → Prop} {r r' : Out Str × St} (hne : r.1 ≠ .oof) (h : OutLike Eq r.1 r'.1)
    (hs : StLike R r.2 r'.2) : LikeOutcome R (queryOut r) (queryOut r') := by
  rcases h.cases with ⟨a, b, e, e', hq⟩ | ⟨x, e, e'⟩ | ⟨x, e, e'⟩ | ⟨e, e'⟩
  · rw [e, e']; exact ⟨hq, hs.store.args⟩
  · rw [e, e']; rfl
  · rw [e, e']; rfl
  · rw [e] at hne; exact (hne rfl).elim

private theorem butForValues_like {R : Val → Val → Prop} {heap heap' : List QB}
    (hh : Pointwise (ButForValues R) heap heap') (hq : ∀ b ∈ heap, b.debug = false) : Pointwise (QBLike R) heap heap' := by
  induction hh with
  | nil => exact .nil
  | @cons b b' _ _ h _ ih =>
    refine .cons ⟨h.qb, hq _ (by simp), ?_⟩ (ih fun b hb => hq b (by simp [hb]))
    obtain ⟨cs, cs', h1, h2, h3⟩ := h
    have hL : GoLib := ⟨fun _ => false, fun _ => none, fun _ => 0, fun _ s => s, fun _ => []⟩
    have e := made_debug (L := hL) (made_of_calls h1)
    rw [made_debug (L := hL) (made_of_calls h2), ← sameCalls_debug h3, ← e]
    exact hq _ (by simp)

/-- **C97** Giving other argument values — in fragments, in the calls that make query builders, and in user code that
does not look at them — changes nothing about a build except the argument list: the outcome is the same text, the
same error or the same panic.  In the Dollar style the other values have the same equality pattern.  (No query builder
logs.) -/
theorem C97_values_influence_nothing (L : GoLib) (R : Val → Val → Prop) (style : Style) (hR : style = dollar → Compat R)
    (b b' : Builder) (hb : SameQ R b b') (heap heap' : List QB) (hh : Pointwise (ButForValues R) heap heap')
    (hq : ∀ qb ∈ heap, qb.debug = false) (o : Out (Str × List Val)) (h : Returns L b style heap o) :
    ∃ o', Returns L b' style heap' o' ∧ LikeOutcome R o o' := by
  obtain ⟨r, h1, rfl⟩ := returns_iff_buildsTo.1 h
  obtain ⟨r', h2, h3, h4⟩ := build_like L hR hb (butForValues_like hh hq) h1
  exact ⟨_, returns_iff_buildsTo.2 ⟨r', h2, rfl⟩, queryOut_like h1.1 h3 h4⟩

/-- **C97** In particular values are never seen in an error: a build that fails, fails with the same error whatever
the values are. -/
theorem C97_values_never_in_errors (L : GoLib) (R : Val → Val → Prop) (style : Style) (hR : style = dollar → Compat R)
    (b b' : Builder) (hb : SameQ R b b') (heap heap' : List QB) (hh : Pointwise (ButForValues R) heap heap')
    (hq : ∀ qb ∈ heap, qb.debug = false) (e : Err) (h : Returns L b style heap (.err e)) :
    Returns L b' style heap' (.err e) := by
  obtain ⟨o', h1, h2⟩ := C97_values_influence_nothing L R style hR b b' hb heap heap' hh hq _ h
  cases o' <;> simp only [LikeOutcome] at h2
  subst h2
  exact h1

private theorem series_like (L : GoLib) {R : Val → Val → Prop} {jobs jobs' : List (Builder × Style)}
    (hj : Pointwise (fun j j' => SameQ R j.1 j'.1 ∧ j.2 = j'.2) jobs jobs')
    (hR : ∀ j ∈ jobs, j.2 = dollar → Compat R) {heap heap' : List QB} (hh : Pointwise (QBLike R) heap heap')
    {os : List (Out (Str × List Val))} (h : Series L heap jobs os) :
    ∃ os', Series L heap' jobs' os' ∧ Pointwise (LikeOutcome R) os os' := by
  induction h generalizing jobs' heap' with
  | nil => cases hj; exact ⟨[], .nil _, .nil⟩
  | @cons heap b style o ctx r s jobs os h hc hb hs ih =>
    cases hj with
    | @cons _ j' _ jobs' hj hjs =>
      obtain ⟨b', style'⟩ := j'
      obtain ⟨hj, rfl⟩ := hj
      rw [newContext_eq] at hc
      cases hc
      obtain ⟨r', h2, h3, h4⟩ := build_like L (hR (b, style) (by simp)) hj hh hb
      obtain ⟨os', h5, h6⟩ := ih hjs (fun j hj => hR j (by simp [hj])) h4.heap
      obtain ⟨r1, h7, rfl⟩ := returns_iff_buildsTo.1 h
      cases buildsTo_unique h7 hb
      exact ⟨_, .cons (returns_iff_buildsTo.2 ⟨r', h2, rfl⟩) (newContext_eq L) (r := r'.1) (s := r'.2) h2 h5,
        .cons (queryOut_like hb.1 h3 h4) h6⟩

/-- **C97** The same for any series of builds that share query builders, each of which finds the query builders as
the earlier builds left them. -/
theorem C97_values_influence_nothing_later (L : GoLib) (R : Val → Val → Prop) (jobs jobs' : List (Builder × Style))
    (hj : Pointwise (fun j j' => SameQ R j.1 j'.1 ∧ j.2 = j'.2) jobs jobs')
    (hR : ∀ j ∈ jobs, j.2 = dollar → Compat R) (heap heap' : List QB) (hh : Pointwise (ButForValues R) heap heap')
    (hq : ∀ qb ∈ heap, qb.debug = false) (os : List (Out (Str × List Val))) (h : Series L heap jobs os) :
    ∃ os', Series L heap' jobs' os' ∧ Pointwise (LikeOutcome R) os os' :=
  series_like L hj hR (butForValues_like hh hq) h

/-- User code: it counts the arguments so far, commits two values and builds a fragment with a function of its own. -/
private def codeWith (v w : Val) : Builder :=
  .custom (.args fun as => .commit v fun p => .buildWith
    [(lit "own", .func [.num .int 0] false [.string 0, .error] (.custom fun _ => .commit w fun q => .ret (lit "(" ++ q ++ lit ")")))]
    (.frag (.Fa (lit "z = $1 OR #own(1)") [w])) fun r =>
      match r with
      | .ok t => if as.length = 1 then .ret (p ++ lit " + " ++ t) else .ret p
      | .error e => .fail e)

private def treeWith (u v w : Val) : Builder :=
  .frag (.mk (lit "a = $1 AND #f1 AND b IN (#f2)") [u] [codeWith v w, .qb 0] [] [])

private def callsWith (v : Val) : List Call :=
  [.select [tableColumn (lit "t") (lit "id")], .from_ ⟨lit "t", []⟩, .where2 (tableColumn (lit "t") (lit "x")) (lit "=") v]

private def qbWith (v : Val) : QB := match runCalls QB.new (callsWith v) with | .ok b => b | _ => QB.new

example (L : GoLib) (u v w x u' v' w' x' : Val) :
    SameQ (fun _ _ => True) (treeWith u v w) (treeWith u' v' w') ∧
    Pointwise (ButForValues fun _ _ => True) [qbWith x] [qbWith x'] ∧ (∀ qb ∈ [qbWith x], qb.debug = false) ∧
    Returns L (treeWith u v w) question [qbWith x]
      (.ok (lit "a = ? AND ? + z = ? OR (?) AND b IN (SELECT t.id FROM t WHERE t.x=?)", [u, v, w, w, x])) := by
  refine ⟨?_, .cons ⟨callsWith x, callsWith x', rfl, rfl, ?_⟩ .nil, ?_, returns_of_buildQuery (n := 100) (by kernel_rfl) (by simp)⟩
  · have ht : ∀ (l l' : List Val), l.length = l'.length → Pointwise (fun _ _ : Val => True) l l' := by
      intro l
      induction l with
      | nil => intro l' h; cases l' with | nil => exact .nil | cons => simp at h
      | cons a l ih => intro l' h; cases l' with | nil => simp at h | cons b l' => exact .cons trivial (ih l' (by simpa using h))
    simp only [treeWith, codeWith, SameQ, SameQF, SameQL, SameCode, SameFuncs, SameEntry, SameFunc, SameBody, Fragment.Fa,
      true_and, and_true, implies_true]
    refine ⟨ht _ _ rfl, fun as as' h _ => ⟨ht _ _ rfl, fun r => ?_⟩⟩
    cases r with
    | error e => simp [SameCode]
    | ok t =>
      dsimp only
      rw [h.length]
      split <;> simp [SameCode]
  · refine .cons ?_ (.cons rfl (.cons ?_ .nil)) <;>
      simp [SameCall, SameQL, SameQ, SameQF, tableColumn, Fragment.F] <;> exact .nil
  · intro qb hqb
    cases List.mem_singleton.1 hqb
    kernel_rfl

/-- An error, the same for all values. -/
example (L : GoLib) (u v : Val) : SameQ (fun _ _ => True) (.frag (.Fa (lit "a = $1 AND b = $2") [u]))
    (.frag (.Fa (lit "a = $1 AND b = $2") [v])) ∧
    Returns L (.frag (.Fa (lit "a = $1 AND b = $2") [u])) question []
      (.err (.wrap (lit "a = $1 AND b = $2") (.bindVarIndex 2))) :=
  ⟨by simp [SameQ, SameQF, SameQL, Fragment.Fa]; exact .cons trivial .nil,
    returns_of_buildQuery (n := 100) (by kernel_rfl) (by simp)⟩

end Sqlf.Props
