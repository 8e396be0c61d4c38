import Verif.Proofs.QbSim
import Verif.Proofs.Interpolate
import Verif.Spec.Debug
/-!
# Nested query builders correspond to their meanings
-/

namespace Sqlf

open Spec

/-! ## The builders of a query builder -/

theorem noCodeL_iff (bs : List Builder) : NoCodeL bs ↔ ∀ b ∈ bs, NoCode b := by
  induction bs with
  | nil => simp [NoCodeL]
  | cons b bs ih => simp [NoCodeL, ih]

theorem mem_qbRefsL (bs : List Builder) (r : Nat) : r ∈ qbRefsL bs ↔ ∃ b ∈ bs, r ∈ qbRefs b := by
  induction bs with
  | nil => simp [qbRefsL]
  | cons b bs ih => simp [qbRefsL, ih]

theorem mem_orderBuilders {d : Bool} {i : Nat} {items : List OrderItem} {b : Builder} (h : b ∈ orderBuilders d i items) :
    (∃ t, b = .frag (.F t)) ∨ ∃ t, ∃ o ∈ items, b = .frag (.Ff t [o.column]) := by
  induction items generalizing i with
  | nil => simp [orderBuilders] at h
  | cons o items ih =>
    rw [orderBuilders, List.mem_append] at h
    rcases h with h | h
    · cases ho : orderText o.order with
      | none => rw [ho] at h; cases h
      | some t =>
        rw [ho] at h
        dsimp only at h
        split at h
        · exact .inl ⟨_, List.mem_singleton.1 h⟩
        · exact .inr ⟨_, o, by simp, List.mem_singleton.1 h⟩
    · rcases ih h with h | ⟨t, o', h1, h2⟩
      · exact .inl h
      · exact .inr ⟨t, o', by simp [h1], h2⟩

theorem mem_orderColumns {d : Bool} {i : Nat} {items : List OrderItem} {b : Builder} (h : b ∈ orderColumns d i items) :
    ∃ t, ∃ o ∈ items, b = .frag (.Ff t [o.column]) := by
  obtain ⟨-, o, h1, i, h2⟩ := orderColumns_touch h
  exact ⟨_, o, h1, h2⟩

/-- A builder that is built for a query is one of its parts, or has at most one of them in it. -/
theorem mem_allBuilders {b : QB} {c : Builder} (h : c ∈ allBuilders b) :
    c ∈ partsOf b ∨ (∃ t, c = .frag (.F t)) ∨ ∃ t, ∃ x ∈ partsOf b, c = .frag (.Ff t [x]) := by
  have hcol : ∀ o ∈ b.orders, o.column ∈ partsOf b := by
    intro o ho
    unfold partsOf
    simp only [List.mem_append]
    exact .inl (.inl (.inl (.inr (List.mem_map_of_mem ho))))
  simp only [allBuilders, List.mem_append] at h
  rcases h with ((((((h | h) | h) | h) | h) | h) | h | h) | h
  · exact .inl (by simp only [partsOf, List.mem_append]; simp [h])
  · exact .inl (by simp only [partsOf, List.mem_append]; simp [h])
  · exact .inl (by simp only [partsOf, List.mem_append]; simp [h])
  · exact .inl (by simp only [partsOf, List.mem_append]; simp [h])
  · rcases mem_orderBuilders h with h | ⟨t, o, h1, h2⟩
    · exact .inr (.inl h)
    · exact .inr (.inr ⟨t, _, hcol o h1, h2⟩)
  · exact .inl (by simp only [partsOf, List.mem_append]; simp [h])
  · exact .inl (by simp only [partsOf, List.mem_append]; simp [h])
  · obtain ⟨t, o, h1, h2⟩ := mem_orderColumns h
    exact .inr (.inr ⟨t, _, hcol o h1, h2⟩)
  · exact .inl (by simp only [partsOf, List.mem_append]; simp [h])

theorem allBuilders_noCode {b : QB} (h : NoCodeL (partsOf b)) : NoCodeL (allBuilders b) := by
  rw [noCodeL_iff] at h ⊢
  intro c hc
  rcases mem_allBuilders hc with hc | ⟨t, rfl⟩ | ⟨t, x, hx, rfl⟩
  · exact h c hc
  · simp [NoCode, Fragment.F, NoCodeF, NoCodeL]
  · simp [NoCode, Fragment.Ff, NoCodeF, NoCodeL, h x hx]

theorem allBuilders_refs {b : QB} {r : Nat} (h : r ∈ qbRefsL (allBuilders b)) : r ∈ qbRefsL (partsOf b) := by
  rw [mem_qbRefsL] at h ⊢
  obtain ⟨c, hc, hr⟩ := h
  rcases mem_allBuilders hc with hc | ⟨t, rfl⟩ | ⟨t, x, hx, rfl⟩
  · exact ⟨c, hc, hr⟩
  · simp [qbRefs, Fragment.F, qbRefsF, qbRefsL] at hr
  · simp [qbRefs, Fragment.Ff, qbRefsF, qbRefsL] at hr
    exact ⟨x, hx, hr⟩

/-! ## Made query builders -/

theorem made_shaped {L : GoLib} {cs : List Call} {b : QB} (h : Made L cs b) : ShapedQB b := by
  have hf := h.fields
  obtain ⟨p, hp⟩ := hf.selects
  obtain ⟨ts, ht, -⟩ := hf.touches
  refine ⟨⟨p, ?_⟩, ?_, ?_, ?_⟩
  · rw [hp]; rfl
  · rw [ht]; rfl
  · rw [hf.conditions]; rfl
  · rw [hf.groupbys]; rfl

theorem made_debug {L : GoLib} {cs : List Call} {b : QB} (h : Made L cs b) : b.debug = debugIn cs := by
  obtain ⟨b0, h1, h2⟩ := h.base
  rw [h2.debug, calls_debug h1]; rfl

theorem afterOrders_steady {b : QB} (h : SteadyQB b) : afterOrders b = b := by
  obtain ⟨h1, h2⟩ := orderItems_steady h
  unfold afterOrders
  rw [h1, h2, appendFragments_nil, List.append_nil]

/-! ## Nested query builders -/

theorem BuildSim.of_at {s0 : Store} {T : List QB} {g : List Str} {m : M Str} {f : Sem}
    (h : ∀ ps s log a u, commitAll s0 log = some (ps, s.store) → KeptMem T g a u s →
      SimAt s0 (KeptMem T g a u) RD ps log (m s) (f log)) : BuildSim ⟨s0, memory T g⟩ m f := by
  intro ps s log hs hK
  obtain ⟨ps', h1, h2, h3, ⟨h4, h5, h6⟩, h7⟩ := h ps s log s.usedA s.usedF hs ⟨hK, rfl, rfl⟩
  exact ⟨ps', h3, ⟨h4, h5, h6⟩, h1, h2, (matchesR_RD ..).1 h7⟩

theorem interpolate_not_oof (L : GoLib) (layout query : Str) (args : List Val) :
    interpolate L layout query args ≠ .oof := by
  unfold interpolate
  split
  · nofun
  · exact interpolateExprs_ne_oof _ _ _ _

theorem interpolate_panic {L : GoLib} {layout query : Str} {args : List Val} {p : Panic}
    (h : interpolate L layout query args = .panic p) : p = .indexOutOfRange ∨ p = .nilDereference := by
  unfold interpolate at h
  split at h
  · cases h
  · obtain ⟨-, -, -, ⟨-, h⟩ | ⟨-, h⟩⟩ := interpolateExprs_panic h
    · exact .inl h
    · exact .inr h

/-- The query builder at `r`, which is `b`, corresponds to the meaning of `b`. -/
theorem qb_sim {s0 : Store} {T : List QB} {g : List Str} {L : GoLib} {child : Builder → Sem} {N : Nat} {r : Nat}
    {b : QB} (hr : T[r]? = some b) (hsh : ShapedQB b)
    (h1 : SimsL ⟨s0, memory T g⟩ L N child (allBuilders b))
    (h2 : SimsL ⟨s0, memory (T.set r (afterOrders b)) g⟩ L N child (allBuilders b))
    {m : Nat} (hm : N + 60 + (allBuilders b).length ≤ m) {ctx : Ctx}
    (hb : BuiltinCtx ctx) {ps : List Str} {s : St} {log : List Val}
    (hs : commitAll s0 log = some (ps, s.store)) {a u : List Nat} (hK : KeptMem T g a u s) :
    SimTo s0 (fun s => KeptMem T g a u s ∨ KeptMem (T.set r (afterOrders b)) g a u s)
      (KeptMem (T.set r (afterOrders b)) g a u) RD
      ps log (buildInternal L (run L m) m ctx r s) (SemOf.bind (qbSem child b) (printStep L s0 b.debug) log) := by
  rw [buildInternal_eq]
  refine SimTo.bind (core_sim hr hsh h1 h2 hm hb hs hK) (fun _ h => h) ?_
  intro ps1 s1 log1 t d hp1 hs1 hK1 ht
  obtain ⟨b1, hg, hd⟩ : ∃ b1, s1.heap[r]? = some b1 ∧ b1.debug = b.debug := by
    have hT2 : (T.set r (afterOrders b))[r]? = some (afterOrders b) := by
      rw [List.getElem?_set_self (List.getElem?_eq_some_iff.1 hr).1]
    obtain ⟨q, hg⟩ := hK1.get hT2
    exact ⟨_, hg, rfl⟩
  rw [getQB_bind hg, hd]
  by_cases hdb : b.debug = true
  case neg =>
    rw [if_neg hdb]
    unfold printStep
    rw [if_neg (by simp [hdb])]
    exact SimAt.to (SimAt.pure hs1 hK1 ht) (fun _ h => .inr h) (fun _ h => h)
  rw [if_pos hdb]
  have hpp : printPanics L s0 log1 d = match interpolate L rfc3339 t s1.store.args with
      | .panic _ => true
      | _ => false := by
    unfold printPanics
    rw [hs1, ht.1]
    dsimp only
    cases interpolate L rfc3339 (renderDoc ps1 d) s1.store.args <;> rfl
  unfold printStep
  rw [hpp, hdb]
  have hmore : ∀ x : Str, KeptMem (T.set r (afterOrders b)) g a u { s1 with log := s1.log ++ [x] } := by
    intro x
    obtain ⟨⟨h1, h2⟩, h3⟩ := hK1
    exact ⟨⟨h1.trans (List.prefix_append ..), h2⟩, h3⟩
  have hno := interpolate_not_oof L rfc3339 t s1.store.args
  unfold M.bind debugLog
  cases hi : interpolate L rfc3339 t s1.store.args with
  | ok x => exact ⟨⟨ps1, List.prefix_rfl, List.prefix_rfl, hs1, .inr (hmore x), ht⟩, fun _ _ => hmore x⟩
  | err e => exact ⟨⟨ps1, List.prefix_rfl, List.prefix_rfl, hs1, .inr (hmore []), ht⟩, fun _ _ => hmore []⟩
  | panic p =>
    refine ⟨⟨ps1, List.prefix_rfl, List.prefix_rfl, hs1, .inr hK1, ?_⟩, nofun⟩
    rcases interpolate_panic hi with rfl | rfl <;> rfl
  | oof => exact absurd hi hno

/-- Nested query builders correspond to their meanings in memory `T`, if they are the same in memory `T'`. -/
theorem nested_simsD {s0 : Store} {L : GoLib} {T T' : List QB} {g : List Str}
    (hT : ∀ (r : Nat) (b : QB), T[r]? = some b → NestableD L b → T'[r]? = some b) (d r : Nat)
    (h : NestedIn (NestableD L) T d r) :
    Sims ⟨s0, memory T' g⟩ L (.qb r) (heapSemD L (parseO L) (badFor s0) s0 T d r) := by
  induction d generalizing r with
  | zero => exact h.elim
  | succ d ih =>
    obtain ⟨b, hb, hn, hnest⟩ := h
    have hb' := hT r b hb hn
    obtain ⟨cs, hmade, ⟨hrep1, hrep2⟩, hcode⟩ := hn
    have hsteady : SteadyQB b := by
      have hf := hmade.fields
      unfold SteadyQB
      rw [hf.orders, hf.distinct]
      exact ⟨hrep1, hrep2⟩
    have hchild := semQL_sims (W := ⟨s0, memory T' g⟩) (L := L) (env := heapSemD L (parseO L) (badFor s0) s0 T d)
      (allBuilders b) (allBuilders_noCode hcode) (fun r' hr' => ih r' (hnest r' (allBuilders_refs hr')))
    obtain ⟨N, hN⟩ := simsL_of hchild
    refine ⟨N + 60 + (allBuilders b).length + 1, fun n hn ctx hctx => ?_⟩
    obtain ⟨m, rfl⟩ : ∃ m, n = m + 1 := ⟨n - 1, by omega⟩
    rw [heapSemD, hb]
    refine BuildSim.of_at fun ps s log a u hs hK => ?_
    have hset : T'.set r (afterOrders b) = T' := by rw [afterOrders_steady hsteady, set_self hb']
    have := qb_sim (m := m) hb' (made_shaped hmade) hN (by rw [hset]; exact hN)
      (by omega) hctx hs hK
    rw [hset] at this
    exact SimAt.mono this.1 (fun s h => h.elim id id) (fun _ _ _ _ h => h)

/-- The query builder of a build corresponds to its meaning; it may have Distinct with OrderBy, or invalid
orders. -/
theorem top_simTo {s0 : Store} {L : GoLib} {T : List QB} {d r : Nat} (h : QueryAtD L T d r) (g : List Str) :
    ∃ N, ∀ n, N ≤ n → ∀ ctx, BuiltinCtx ctx → ∀ ps s log, commitAll s0 log = some (ps, s.store) →
      HeapRel SelectsOnly T s.heap → g <+: s.log →
      SimTo s0 (fun s' => s'.usedA = s.usedA ∧ s'.usedF = s.usedF ∧ g <+: s'.log)
        (fun s' => ∀ b, T[r]? = some b → HeapRel SelectsOnly (T.set r (afterOrders b)) s'.heap) RD ps log
        (run L n ctx (.build (.qb r)) s) (heapSemD L (parseO L) (badFor s0) s0 T (d + 1) r log) := by
  obtain ⟨b, cs, hb, hmade, hcode, hnest⟩ := h
  have h1 : ∀ c ∈ allBuilders b, Sims ⟨s0, memory T g⟩ L c
      (semQ L (parseO L) (badFor s0) (heapSemD L (parseO L) (badFor s0) s0 T d) c) :=
    semQL_sims (allBuilders b) (allBuilders_noCode hcode)
      (fun r' hr' => nested_simsD (fun _ _ h _ => h) d r' (hnest r' (allBuilders_refs hr')))
  have h2 : ∀ c ∈ allBuilders b, Sims ⟨s0, memory (T.set r (afterOrders b)) g⟩ L c
      (semQ L (parseO L) (badFor s0) (heapSemD L (parseO L) (badFor s0) s0 T d) c) := by
    by_cases hst : afterOrders b = b
    · rw [hst, set_self hb]; exact h1
    · refine semQL_sims (allBuilders b) (allBuilders_noCode hcode)
        (fun r' hr' => nested_simsD (fun r1 b1 h1 hn => ?_) d r' (hnest r' (allBuilders_refs hr')))
      by_cases e : r = r1
      · subst e
        rw [hb] at h1
        cases h1
        obtain ⟨cs', hm', ⟨hr1, hr2⟩, -⟩ := hn
        refine absurd (afterOrders_steady ?_) hst
        have hf := hm'.fields
        unfold SteadyQB
        rw [hf.orders, hf.distinct]
        exact ⟨hr1, hr2⟩
      · rw [List.getElem?_set_ne e]; exact h1
  obtain ⟨N1, hN1⟩ := simsL_of h1
  obtain ⟨N2, hN2⟩ := simsL_of h2
  refine ⟨max N1 N2 + 60 + (allBuilders b).length + 1, fun n hn ctx hctx ps s log hs hheap hg => ?_⟩
  obtain ⟨m, rfl⟩ : ∃ m, n = m + 1 := ⟨n - 1, by omega⟩
  rw [heapSemD, hb]
  have hq := qb_sim (m := m) (N := max N1 N2) hb (made_shaped hmade)
    (hN1.mono (by omega) fun _ h => h) (hN2.mono (by omega) fun _ h => h) (by omega) hctx hs
    ⟨⟨hg, hheap⟩, rfl, rfl⟩
  refine ⟨SimAt.mono hq.1 (fun s' h => ?_) (fun _ _ _ _ h => h), fun t ht b' hb' => ?_⟩
  · rcases h with h | h <;> exact ⟨h.2.1, h.2.2, h.1.1⟩
  · cases hb'
    exact (hq.2 t ht).1.2

theorem top_simD {s0 : Store} {L : GoLib} {T : List QB} {d r : Nat} (h : QueryAtD L T d r) (g : List Str) :
    ∃ N, ∀ n, N ≤ n → ∀ ctx, BuiltinCtx ctx → ∀ ps s log, commitAll s0 log = some (ps, s.store) →
      HeapRel SelectsOnly T s.heap → g <+: s.log →
      SimAt s0 (fun s' => s'.usedA = s.usedA ∧ s'.usedF = s.usedF ∧ g <+: s'.log) RD ps log
        (run L n ctx (.build (.qb r)) s) (heapSemD L (parseO L) (badFor s0) s0 T (d + 1) r log) := by
  obtain ⟨N, hN⟩ := top_simTo (s0 := s0) h g
  exact ⟨N, fun n hn ctx hc ps s log h1 h2 h3 => (hN n hn ctx hc ps s log h1 h2 h3).1⟩

end Sqlf
