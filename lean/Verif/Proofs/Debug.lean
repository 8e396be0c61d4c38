import Verif.Proofs.QueryApi
import Verif.Proofs.InterpolateStyles
import Verif.Proofs.Calls
import Verif.Proofs.Marks
/-!
# Printing with debug output does not panic
-/

namespace Sqlf

open Spec

theorem question_bindVars (ps : List Piece) (k : Nat) (q : Bool) (es : List Expr)
    (h : meaning k q (itemsOf (fun _ => .qmark) ps) = some es) {st : Style} {i : Int} (hi : Expr.bindVar st i ∈ es) :
    k < i ∧ i ≤ k + (binds (docOf ps)).length := by
  induction ps generalizing k q es with
  | nil => simp [itemsOf, meaning] at h; subst h; cases hi
  | cons p ps ih =>
    cases p with
    | mark j =>
      simp only [itemsOf, meaning, Option.map_eq_some_iff] at h
      obtain ⟨es1, h, rfl⟩ := h
      simp only [docOf, binds, List.length_cons]
      rcases List.mem_cons.1 hi with hi | hi
      · cases hi; omega
      · have := ih _ _ _ h hi; omega
    | _ =>
      simp only [itemsOf, meaning, Option.map_eq_some_iff] at h
      obtain ⟨es1, h, rfl⟩ := h
      rw [docOf, binds_text]
      rcases List.mem_cons.1 hi with hi | hi
      · cases hi
      · exact ih _ _ _ h hi

theorem dollar_bindVars (num : Nat → Nat) (ps : List Piece) (k : Nat) (es : List Expr)
    (h : meaning k false (itemsOf (fun j => .dollarN (num j)) ps) = some es) {st : Style} {i : Int}
    (hi : Expr.bindVar st i ∈ es) : ∃ j ∈ binds (docOf ps), i = num j := by
  induction ps generalizing k es with
  | nil => simp [itemsOf, meaning] at h; subst h; cases hi
  | cons p ps ih =>
    cases p with
    | mark j =>
      simp only [itemsOf, meaning, Option.map_eq_some_iff, Bool.false_eq_true, if_false] at h
      obtain ⟨es1, h, rfl⟩ := h
      simp only [docOf, binds]
      rcases List.mem_cons.1 hi with hi | hi
      · cases hi; exact ⟨j, by simp, rfl⟩
      · obtain ⟨j', h1, h2⟩ := ih _ _ h hi; exact ⟨j', by simp [h1], h2⟩
    | _ =>
      simp only [itemsOf, meaning, Option.map_eq_some_iff] at h
      obtain ⟨es1, h, rfl⟩ := h
      rw [docOf, binds_text]
      rcases List.mem_cons.1 hi with hi | hi
      · cases hi
      · exact ih _ _ h hi

/-- Filling in a query without markers does not panic, if writing the values does not. -/
theorem interpolate_noMarkers (L : GoLib) (layout : Str) (style : Style) (d : Doc) (vs : List Val) (phs : List Str) (st : Store)
    (hc : commitAll (Store.new style) vs = some (phs, st)) (hr : ∀ k ∈ binds d, k < vs.length)
    (hb : (binds d).length ≤ vs.length) (hd : NoMarkers d) (hl : vs.length < 2 ^ 63)
    (hw : ∀ v ∈ vs, ¬ WritingPanics v) (p : Panic) :
    interpolate L layout (renderDoc phs d) st.args ≠ .panic p := by
  obtain ⟨ps, hp, rfl⟩ := hd
  have key : ∃ es, parse L (renderDoc phs (docOf ps)) = .ok es ∧
      ∀ s i, Expr.bindVar s i ∈ es → 1 ≤ i ∧ i ≤ st.args.length := by
    by_cases hs : style = dollar
    · have key : ∀ i, ∃ n, i < vs.length → 1 ≤ n ∧ n < 2 ^ 63 ∧ phs[i]? = some (dollarMark n) ∧ n ≤ st.args.length := by
        intro i
        by_cases hi : i < vs.length
        · rw [hs] at hc
          obtain ⟨k, w, h1, h2, h3⟩ := commitAll_resolve (Store.new_inv dollar) rfl hc i vs[i] (by simp [hi])
          have hk := (List.getElem?_eq_some_iff.mp h2).1
          have hlen : st.args.length ≤ vs.length := by
            have := (commitAll_args_subset hc).2
            simpa [Store.new] using this
          exact ⟨k + 1, fun _ => ⟨by omega, by omega, h1, by omega⟩⟩
        · exact ⟨0, fun h => absurd h hi⟩
      have ⟨num, hnum⟩ := Classical.axiomOfChoice key
      have m2 : ∀ k ∈ binds (docOf ps), IsMark ((fun j => .dollarN (num j) : Nat → Item) k) :=
        fun k hk => isMark_dollarN (hnum k (hr k hk)).1 (hnum k (hr k hk)).2.1
      have r2 := render_itemsOf (fun j => .dollarN (num j)) phs ps (by
        intro k hk
        have := (hnum k (hr k hk)).2.2.1
        simp [renderItem, List.getD, this, dollarMark])
      obtain ⟨es2, e2⟩ := meaning_dollar num ps 0
      obtain ⟨fs2, f2, g2⟩ := parse_render_some L (wf_itemsOf m2 hp) e2
      rw [r2] at f2
      refine ⟨fs2, f2, fun s i hi => ?_⟩
      rw [← mem_glue (by nofun), g2, mem_glue (by nofun)] at hi
      obtain ⟨j, h1, rfl⟩ := dollar_bindVars num ps 0 es2 e2 hi
      have := hnum j (hr j h1)
      omega
    · have hq := commitAll_question vs (Store.new style) (by simp [Store.new, hs])
      rw [hq] at hc
      cases hc
      have m1 : ∀ k ∈ binds (docOf ps), IsMark ((fun _ => .qmark : Nat → Item) k) := fun k _ => isMark_qmark
      have r1 := render_itemsOf (fun _ => .qmark) (List.replicate vs.length (lit "?")) ps (by
        intro k hk; simp [renderItem, List.getD, hr k hk])
      obtain ⟨es1, e1⟩ := meaning_question ps 0 false
      obtain ⟨fs1, f1, g1⟩ := parse_render_some L (wf_itemsOf m1 hp) e1
      rw [r1] at f1
      refine ⟨fs1, f1, fun s i hi => ?_⟩
      rw [← mem_glue (by nofun), g1, mem_glue (by nofun)] at hi
      have := question_bindVars ps 0 false es1 e1 hi
      simp [Store.new]
      omega
  obtain ⟨es, h1, h2⟩ := key
  unfold interpolate
  rw [h1]
  dsimp only
  intro h
  obtain ⟨st', i, hi, ⟨h3, -⟩ | ⟨⟨v, hv, h3⟩, -⟩⟩ := interpolateExprs_panic h
  · have := h2 st' i hi; omega
  · rcases (commitAll_args_subset hc).1 v (List.mem_of_getElem? hv) with hm | hm
    · simp [Store.new] at hm
    · exact hw v hm h3

theorem printPanics_noMarkers (L : GoLib) (style : Style) (d : Doc) (vs : List Val) (hr : ∀ k ∈ binds d, k < vs.length)
    (hb : (binds d).length ≤ vs.length) (hd : NoMarkers d) (hl : vs.length < 2 ^ 63)
    (hw : ∀ v ∈ vs, ¬ WritingPanics v) : printPanics L (Store.new style) vs d = false := by
  unfold printPanics
  cases hc : commitAll (Store.new style) vs with
  | none => rfl
  | some p =>
    obtain ⟨phs, st⟩ := p
    dsimp only
    have := interpolate_noMarkers L rfc3339 style d vs phs st hc hr hb hd hl hw
    cases hi : interpolate L rfc3339 (renderDoc phs d) st.args with
    | panic p => exact absurd hi (this p)
    | _ => rfl

/-- Printing only panics after 2^63 values, or with a value of which the writing panics. -/
theorem heapSemD_fine {L : GoLib} {style : Style} {T : List QB} (h : Printable L style T) (d r : Nat) :
    Under (fun vs => 2 ^ 63 ≤ vs.length ∨ ∃ v ∈ vs, WritingPanics v)
      (heapSemD L (fun s => (parse L s).toOption) (cannotCommit style) (Store.new style) T d r)
      (heapSem L (fun s => (parse L s).toOption) (cannotCommit style) T d r) := by
  induction d generalizing r with
  | zero => exact .refl (α := Doc) _
  | succ d ih =>
    have hp := h r
    rw [heapSemD, heapSem]
    cases hb : T[r]? with
    | none => exact .refl (α := Doc) _
    | some b =>
      have hp := fun hd => hp b hb hd (d + 1)
      simp only [heapSem, hb] at hp
      dsimp only
      have h1 := qbSem_under (H := fun vs => 2 ^ 63 ≤ vs.length ∨ ∃ v ∈ vs, WritingPanics v) (b := b)
        (child := semQ L (fun s => (parse L s).toOption) (cannotCommit style)
          (heapSemD L (fun s => (parse L s).toOption) (cannotCommit style) (Store.new style) T d))
        (child' := semQ L (fun s => (parse L s).toOption) (cannotCommit style)
          (heapSem L (fun s => (parse L s).toOption) (cannotCommit style) T d))
        fun c _ => semQ_under L _ _ c fun r _ => ih r
      intro log
      unfold SemOf.bind
      rcases h1 log with h1 | ⟨h1, h2⟩
      · rw [h1]
        rcases hg : qbSem (semQ L (fun s => (parse L s).toOption) (cannotCommit style)
          (heapSem L (fun s => (parse L s).toOption) (cannotCommit style) T d)) b log with ⟨o, vs⟩
        cases o with
        | ok x =>
          dsimp only
          unfold printStep
          by_cases hl : vs.length < 2 ^ 63 ∧ ∀ v ∈ vs, ¬ WritingPanics v
          · left
            rw [if_neg]
            intro hc
            simp only [Bool.and_eq_true] at hc
            have p1 := hp hc.1 log x vs hg
            obtain ⟨-, p2, p3⟩ := (qbSem_marked (semQ_marked L _ _ _ (heapSem_marked L _ _ T d)) b).binds hg
            rw [printPanics_noMarkers L style x vs (fun k hk => (p2 k hk).2) (by omega) p1 hl.1 hl.2] at hc
            simp at hc
          · split
            · refine .inr ⟨?_, trivial⟩
              by_cases h63 : vs.length < 2 ^ 63
              · right
                simpa using fun h => hl ⟨h63, h⟩
              · left; dsimp only; omega
            · exact .inl rfl
        | _ => exact .inl rfl
      · right
        revert h1 h2
        rcases qbSem (semQ L (fun s => (parse L s).toOption) (cannotCommit style)
          (heapSemD L (fun s => (parse L s).toOption) (cannotCommit style) (Store.new style) T d)) b log with ⟨o, vs⟩
        cases o <;> simp [Hard]

/-! ## Calling `Debug` -/

theorem made_withDebug {L : GoLib} {b b' : QB} {cs : List Call} (hm : Made L cs b)
    (h : b' = b ∨ Call.debug.apply b = .ok b') :
    ∃ cs', Made L cs' b' ∧ (Repeatable cs → Repeatable cs') ∧ partsOf b' = partsOf b := by
  rcases h with rfl | h
  · exact ⟨cs, hm, id, rfl⟩
  · have hm' := Made.call hm h
    cases h
    refine ⟨_, hm', fun hr => ?_, rfl⟩
    unfold Repeatable at hr ⊢
    rw [← hm'.fields.orders, ← hm'.fields.distinct]
    rw [← hm.fields.orders, ← hm.fields.distinct] at hr
    exact hr

theorem nested_withDebug {L : GoLib} {heap heap' : List QB} (h : WithDebug heap heap') {d r : Nat}
    (hn : NestedIn (NestableD L) heap d r) : NestedIn (NestableD L) heap' d r := by
  induction d generalizing r with
  | zero => exact hn
  | succ d ih =>
    obtain ⟨b, h1, ⟨cs, h2, h3, h4⟩, h5⟩ := hn
    rcases Pointwise.get h r with ⟨h6, -⟩ | ⟨x, b', h6, h7, h8⟩
    · rw [h1] at h6; cases h6
    · rw [h1] at h6; cases h6
      obtain ⟨cs', m1, m2, m3⟩ := made_withDebug h2 h8
      exact ⟨b', h7, ⟨cs', m1, m2 h3, m3 ▸ h4⟩, fun r' hr => ih (h5 r' (m3 ▸ hr))⟩

theorem queryAt_withDebug {L : GoLib} {heap heap' : List QB} (h : WithDebug heap heap') {d r : Nat}
    (hn : QueryAtD L heap d r) : QueryAtD L heap' d r := by
  obtain ⟨b, cs, h1, h2, h4, h5⟩ := hn
  rcases Pointwise.get h r with ⟨h6, -⟩ | ⟨x, b', h6, h7, h8⟩
  · rw [h1] at h6; cases h6
  · rw [h1] at h6; cases h6
    obtain ⟨cs', m1, -, m3⟩ := made_withDebug h2 h8
    exact ⟨b', cs', h7, m1, m3 ▸ h4, fun r' hr => nested_withDebug h (h5 r' (m3 ▸ hr))⟩

theorem outMatches_same {ps : List Str} {as : List Val} {c : Res Doc} {o o' : Out (Str × List Val)}
    (h : OutMatches ps as c o) (h' : OutMatches ps as c o') : SameOutcome o o' := by
  cases c <;> cases o <;> cases o' <;> simp_all [OutMatches, SameOutcome]

/-! ## What is printed -/

/-- Nothing is printed without Debug. -/
def NotPrinted (s s' : St) : Prop :=
  (∀ (r : Nat) (b : QB), s.heap[r]? = some b → b.debug = false) →
    s'.log = s.log ∧ ∀ (r : Nat) (b : QB), s'.heap[r]? = some b → b.debug = false

theorem notPrinted_set {s : St} {r : Nat} {b b' : QB} (hr : s.heap[r]? = some b) (h : b'.debug = b.debug) :
    NotPrinted s (setQB s r b') := by
  intro hs
  refine ⟨rfl, fun r' b1 h1 => ?_⟩
  unfold setQB at h1
  by_cases e : r = r'
  · subst e
    rw [List.getElem?_set_self (List.getElem?_eq_some_iff.1 hr).1] at h1
    cases h1
    rw [h]; exact hs r b hr
  · rw [List.getElem?_set_ne e] at h1
    exact hs r' b1 h1

theorem notPrinted_effRel : EffRel NotPrinted where
  refl _ := fun h => ⟨rfl, h⟩
  trans h1 h2 := fun h => ⟨(h2 (h1 h).2).1.trans (h1 h).1, (h2 (h1 h).2).2⟩
  commit _ _ _ _ _ := fun h => ⟨rfl, h⟩
  orders _ _ _ h := notPrinted_set h rfl
  selects _ _ _ _ h := notPrinted_set h rfl
  log s r b l h hd := fun hs => by rw [hs r b h] at hd; cases hd
  markA _ _ := fun h => ⟨rfl, h⟩
  markF _ _ := fun h => ⟨rfl, h⟩
  fresh _ _ h := h
  own _ _ _ h := h

/-- With Debug, the last line is the query with its arguments filled in. -/
theorem printed_last {L : GoLib} {ctx : Ctx} {r : Nat} {b : QB} {s s' : St} {q : Str} (hr : s.heap[r]? = some b)
    (hd : b.debug = true) (h : BuildsTo L ctx (.qb r) s (.ok q, s')) :
    ∃ lines line, s'.log = lines ++ [line] ∧ (interpolate L rfc3339 q s'.store.args = .ok line ∨
      (∃ e, interpolate L rfc3339 q s'.store.args = .err e) ∧ line = []) := by
  obtain ⟨b', hb', hg⟩ := h.grown r b hr
  obtain ⟨-, N, hN⟩ := h
  have hrun := hN (N + 1) (by omega)
  change buildInternal L (run L N) N ctx r s = _ at hrun
  rw [buildInternal_eq] at hrun
  unfold M.bind at hrun
  rcases hc : buildCore L (run L N) N ctx r s with ⟨o, s1⟩
  rw [hc] at hrun
  cases o with
  | ok t =>
    dsimp only at hrun
    unfold getQB at hrun
    cases hb1 : s1.heap[r]? with
    | none => rw [hb1] at hrun; simp at hrun
    | some b1 =>
      rw [hb1] at hrun
      dsimp only at hrun
      by_cases hd1 : b1.debug = true
      · rw [if_pos hd1] at hrun
        unfold debugLog at hrun
        cases hi : interpolate L rfc3339 t s1.store.args with
        | ok x =>
          rw [hi] at hrun
          simp only [M.pure, Prod.mk.injEq, Out.ok.injEq] at hrun
          obtain ⟨rfl, rfl⟩ := hrun
          exact ⟨_, x, rfl, .inl hi⟩
        | err e =>
          rw [hi] at hrun
          simp only [M.pure, Prod.mk.injEq, Out.ok.injEq] at hrun
          obtain ⟨rfl, rfl⟩ := hrun
          exact ⟨_, [], rfl, .inr ⟨⟨e, hi⟩, rfl⟩⟩
        | panic p => rw [hi] at hrun; simp at hrun
        | oof => rw [hi] at hrun; simp at hrun
      · rw [if_neg hd1] at hrun
        simp only [M.pure, Prod.mk.injEq, Out.ok.injEq] at hrun
        obtain ⟨rfl, rfl⟩ := hrun
        rw [hb1] at hb'
        cases hb'
        rw [hg.debug, hd] at hd1
        exact absurd rfl hd1
  | _ => simp at hrun

end Sqlf
