import Verif.Spec.BuiltAgain
import Verif.Proofs.QueryApi
/-!
# What builds leave behind
-/

namespace Sqlf

open Spec

theorem timesOver_succ (k : Nat) (l : List α) : timesOver (k + 1) l = timesOver k l ++ l := by
  unfold timesOver
  rw [List.replicate_succ', List.flatten_append]
  simp

theorem afterOrders_grownBy (k : Nat) (b : QB) : afterOrders (grownBy k b) = grownBy (k + 1) b := by
  unfold afterOrders
  rw [orderItems_errors, (orderItems_eq ..).2.1]
  unfold grownBy
  dsimp only
  rw [timesOver_succ, timesOver_succ, ← appendFragments_append, List.append_assoc]
  rfl

theorem SelectsOnly.trans' {a b c : QB} (h : SelectsOnly a b) (h' : SelectsOnly b c) : SelectsOnly a c := by
  obtain ⟨p, rfl⟩ := h
  obtain ⟨q, rfl⟩ := h'
  exact ⟨q, by simp only [withPrefix_withPrefix]⟩

theorem HeapRel.trans' {h1 h2 h3 : List QB} (h : HeapRel SelectsOnly h1 h2) (h' : HeapRel SelectsOnly h2 h3) :
    HeapRel SelectsOnly h1 h3 := by
  refine ⟨fun r hr => h'.none r (h.none r hr), fun r b hr => ?_⟩
  obtain ⟨b', h4, h5⟩ := h.some r b hr
  obtain ⟨b'', h6, h7⟩ := h'.some r b' h4
  exact ⟨b'', h6, h5.trans' h7⟩

theorem SelectsOnly.afterOrders {b b' : QB} (h : SelectsOnly b b') : SelectsOnly (afterOrders b) (afterOrders b') := by
  obtain ⟨p, rfl⟩ := h
  exact ⟨p, rfl⟩

theorem SelectsOnly.partsOf {b b' : QB} (h : SelectsOnly b b') : partsOf b' = partsOf b := by
  obtain ⟨p, rfl⟩ := h
  unfold Spec.partsOf
  dsimp only
  have : (b.selects.withPrefix p).frags = b.selects.frags := by cases b.selects; rfl
  rw [this]
  rfl

theorem partsOf_afterOrders {b : QB} {c : Builder} (h : c ∈ partsOf (afterOrders b)) : c ∈ partsOf b ∨ c ∈ allBuilders b := by
  unfold partsOf at h
  have hf : (afterOrders b).touches.frags = b.touches.frags ++ orderColumns b.distinct 1 b.orders := by
    show (b.touches.appendFragments _).frags = _
    rw [appendFragments_frags, (orderItems_eq b.distinct 0 b.orders).2.1]
  rw [hf] at h
  simp only [List.mem_append] at h
  have key : c ∈ orderColumns b.distinct 1 b.orders ∨ c ∈ partsOf b := by
    unfold partsOf
    simp only [List.mem_append]
    rcases h with ((((((h | h) | h) | h) | h) | h) | h | h) | h
    · exact .inr (.inl (.inl (.inl (.inl (.inl (.inl (.inl h)))))))
    · exact .inr (.inl (.inl (.inl (.inl (.inl (.inl (.inr h)))))))
    · exact .inr (.inl (.inl (.inl (.inl (.inl (.inr h))))))
    · exact .inr (.inl (.inl (.inl (.inl (.inr h)))))
    · exact .inr (.inl (.inl (.inl (.inr h))))
    · exact .inr (.inl (.inl (.inr h)))
    · exact .inr (.inl (.inr h))
    · exact .inl h
    · exact .inr (.inr h)
  rcases key with h | h
  · exact .inr (by unfold allBuilders; simp [h])
  · exact .inl h

/-- Query builders stay as they are required to be while the one at `r` is built. -/
theorem nested_built {L : GoLib} {s s' : St} {ctx : Ctx} {c : Builder} {o : Out Str} {r : Nat} {b : QB} (hr : s.heap[r]? = some b)
    (hb : BuildsTo L ctx c s (o, s')) (hh : HeapRel SelectsOnly (s.heap.set r (afterOrders b)) s'.heap) (d r' : Nat)
    (h : NestedIn (NestableD L) s.heap d r') : NestedIn (NestableD L) s'.heap d r' := by
  induction d generalizing r' with
  | zero => exact h.elim
  | succ d ih =>
    obtain ⟨b1, h1, h2, h3⟩ := h
    have hb1 : (s.heap.set r (afterOrders b))[r']? = some b1 := by
      by_cases e : r = r'
      · subst e
        rw [hr] at h1
        cases h1
        rw [List.getElem?_set_self (List.getElem?_eq_some_iff.1 hr).1, afterOrders_steady]
        obtain ⟨cs, hm, hrep, -⟩ := h2
        have hf := hm.fields
        unfold SteadyQB
        rw [hf.orders, hf.distinct]
        exact hrep
      · rw [List.getElem?_set_ne e]; exact h1
    obtain ⟨b1', h4, h5⟩ := hh.some r' b1 hb1
    obtain ⟨cs, hm, hrep, hc⟩ := h2
    refine ⟨b1', h4, ⟨cs, .build hm h1 hb h4, hrep, by rw [h5.partsOf]; exact hc⟩, ?_⟩
    rw [h5.partsOf]
    exact fun r2 hr2 => ih r2 (h3 r2 hr2)

/-- A build of a query builder leaves it as it is required to be, `afterOrders`. -/
theorem queryAtD_built {L : GoLib} {style : Style} {T : List QB} {d r : Nat} {b : QB} (h : QueryAtD L T d r) (hr : T[r]? = some b)
    {q : Str} {s' : St} (hb : BuildsTo L rootCtx (.qb r) (St.init style T) (.ok q, s')) :
    HeapRel SelectsOnly (T.set r (afterOrders b)) s'.heap ∧ QueryAtD L s'.heap d r := by
  obtain ⟨N, hN⟩ := top_simTo (s0 := Store.new style) h []
  obtain ⟨-, N', hN'⟩ := id hb
  have h1 := (hN (max N N') (by omega) rootCtx rootCtx_builtin [] (St.init style T) [] rfl (heapRel_refl T) List.prefix_rfl).2
  rw [hN' (max N N') (by omega)] at h1
  have hh := h1 q rfl b hr
  refine ⟨hh, ?_⟩
  obtain ⟨b0, cs, h2, hm, hc, hn⟩ := h
  rw [hr] at h2
  cases h2
  have hlt := (List.getElem?_eq_some_iff.1 hr).1
  obtain ⟨b', h4, h5⟩ := hh.some r _ (List.getElem?_set_self hlt)
  refine ⟨b', cs, h4, .build hm hr hb h4, ?_, ?_⟩
  · rw [h5.partsOf, noCodeL_iff]
    intro c hcm
    rcases partsOf_afterOrders hcm with hcm | hcm
    · exact (noCodeL_iff _).1 hc c hcm
    · exact (noCodeL_iff _).1 (allBuilders_noCode hc) c hcm
  · intro r' hr'
    rw [h5.partsOf] at hr'
    refine nested_built (s := St.init style T) hr hb hh d r' (hn r' ?_)
    obtain ⟨c, hcm, hcr⟩ := (mem_qbRefsL ..).1 hr'
    rcases partsOf_afterOrders hcm with hcm | hcm
    · exact (mem_qbRefsL ..).2 ⟨c, hcm, hcr⟩
    · exact allBuilders_refs ((mem_qbRefsL ..).2 ⟨c, hcm, hcr⟩)

theorem returnsLeaving_builds {L : GoLib} {c : Builder} {style : Style} {heap heap' : List QB} {q : Str × List Val}
    (h : ReturnsLeaving L c style heap (.ok q) heap') :
    ∃ t s', BuildsTo L rootCtx c (St.init style heap) (.ok t, s') ∧ s'.heap = heap' := by
  obtain ⟨-, N, h⟩ := h
  have h := h N (Nat.le_refl _)
  rw [buildQueryS_eq] at h
  unfold queryOut at h
  cases hr : run L N rootCtx (.build c) (St.init style heap) with
  | mk o s' =>
    rw [hr] at h
    cases o with
    | ok t => exact ⟨t, s', buildsTo_of_run hr (by simp), h.2⟩
    | err e => cases h.1
    | panic p => cases h.1
    | oof => cases h.1

theorem builtTimes_heap {L : GoLib} {heap heap' : List QB} {d r k : Nat} {b : QB} (h : QueryAtD L heap d r) (hb : heap[r]? = some b)
    (hk : BuiltTimes L r heap k heap') :
    HeapRel SelectsOnly (heap.set r (grownBy k b)) heap' ∧ QueryAtD L heap' d r := by
  have hlt := (List.getElem?_eq_some_iff.1 hb).1
  induction hk with
  | none =>
    have : grownBy 0 b = b := by
      unfold grownBy timesOver
      simp only [List.replicate_zero, List.flatten_nil, appendFragments_nil, List.append_nil]
    rw [this, set_self hb]
    exact ⟨heapRel_refl _, h⟩
  | again hk hb' ih =>
    obtain ⟨h1, h2⟩ := ih
    obtain ⟨b', h3, h4⟩ := h1.some r _ (List.getElem?_set_self hlt)
    obtain ⟨_, s', hb2, rfl⟩ := returnsLeaving_builds hb'
    obtain ⟨h5, h6⟩ := queryAtD_built h2 h3 hb2
    refine ⟨HeapRel.trans' ?_ h5, h6⟩
    have := HeapRel.set h1 h4.afterOrders r
    rwa [List.set_set, afterOrders_grownBy] at this

/-- A query builder with errors is not built. -/
theorem build_errors {L : GoLib} {heap : List QB} {r : Nat} {b : QB} (hr : heap[r]? = some b) (he : b.errors ≠ []) (style : Style) :
    BuildsTo L rootCtx (.qb r) (St.init style heap) (.err (anyError b.errors), St.init style heap) := by
  refine buildsTo_of_run (n := 1) ?_ (by simp [anyError])
  show buildInternal L (run L 0) 0 rootCtx r (St.init style heap) = _
  unfold buildInternal
  have hg : getQB r (St.init style heap) = (.ok b, St.init style heap) := by
    unfold getQB St.init
    rw [hr]
  exact (bind_of_ok hg).trans (congrFun (if_pos fun h => he (List.eq_nil_of_length_eq_zero h)) _)

theorem returns_errors {L : GoLib} {heap : List QB} {r : Nat} {b : QB} (hr : heap[r]? = some b) (he : b.errors ≠ []) (style : Style) :
    Returns L (.qb r) style heap (.err (anyError b.errors)) := by
  obtain ⟨-, N, h⟩ := build_errors (L := L) hr he style
  refine returns_of_buildQuery (n := N) ?_ (by simp [anyError])
  unfold buildQuery
  rw [buildQueryS_eq, h N (Nat.le_refl _)]
  rfl

end Sqlf
