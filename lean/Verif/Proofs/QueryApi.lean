import Verif.Proofs.Under
import Verif.Proofs.NoPanic
/-!
# From the meaning of a query builder to `BuildQuery`
-/

namespace Sqlf

open Spec

theorem returns_of_sim {L : GoLib} {b : Builder} {style : Style} {heap : List QB} {K : St → Prop}
    {c : Res Doc × List Val} {N : Nat}
    (h : SimAt (Store.new style) K RD [] [] (run L N rootCtx (.build b) (St.init style heap)) c) :
    ∃ ps st o, commitAll (Store.new style) c.2 = some (ps, st) ∧
      Returns L b style heap o ∧ OutMatches ps st.args c.1 o := by
  obtain ⟨ps, -, -, h1, -, h2⟩ := h
  rcases hr : run L N rootCtx (.build b) (St.init style heap) with ⟨o, s⟩
  rw [hr] at h1 h2
  have hne : (o, s).1 ≠ .oof := matches_not_oof ((matchesR_RD ..).1 h2)
  refine ⟨ps, s.store, queryOut (o, s), h1, returns_iff_buildsTo.2 ⟨_, buildsTo_of_run hr hne, rfl⟩, ?_⟩
  revert h2
  rcases c with ⟨r, l⟩
  intro h2
  cases r <;> cases o <;> simp_all [MatchesR, OutMatches, queryOut, RD]

theorem heapRel_refl (T : List QB) : HeapRel SelectsOnly T T :=
  ⟨fun _ h => h, fun _ b h => ⟨b, h, .refl b⟩⟩

/-- `BuildQuery` of a query builder, against its meaning. -/
theorem returns_query {L : GoLib} {heap : List QB} {d r : Nat} (h : QueryAt L heap d r) (style : Style) :
    ∃ ps st o, commitAll (Store.new style) (queryMeaning L style heap d r).2 = some (ps, st) ∧
      Returns L (.qb r) style heap o ∧ OutMatches ps st.args (queryMeaning L style heap d r).1 o := by
  obtain ⟨N, hN⟩ := top_sim (s0 := Store.new style) h []
  have := hN N (Nat.le_refl _) rootCtx rootCtx_builtin [] (St.init style heap) [] rfl (heapRel_refl heap) List.prefix_rfl
  rw [badFor_new] at this
  exact returns_of_sim this

/-- … with Debug or without. -/
theorem returns_queryD {L : GoLib} {heap : List QB} {d r : Nat} (h : QueryAtD L heap d r) (style : Style) :
    ∃ ps st o, commitAll (Store.new style) (queryMeaningD L style heap d r).2 = some (ps, st) ∧
      Returns L (.qb r) style heap o ∧ OutMatches ps st.args (queryMeaningD L style heap d r).1 o := by
  obtain ⟨N, hN⟩ := top_simD (s0 := Store.new style) h []
  have := hN N (Nat.le_refl _) rootCtx rootCtx_builtin [] (St.init style heap) [] rfl (heapRel_refl heap) List.prefix_rfl
  rw [badFor_new] at this
  exact returns_of_sim this

/-- `BuildQuery` of a builder with query builders in it, against its meaning. -/
theorem returns_builder {L : GoLib} {heap : List QB} {d : Nat} {c : Builder} (hc : NoCode c)
    (h : ∀ r ∈ qbRefs c, NestedIn (Nestable L) heap d r) (style : Style) :
    ∃ ps st o, commitAll (Store.new style) (builderMeaning L style heap d c).2 = some (ps, st) ∧
      Returns L c style heap o ∧ OutMatches ps st.args (builderMeaning L style heap d c).1 o := by
  obtain ⟨N, hN⟩ := semQ_sims (W := ⟨Store.new style, memory heap []⟩) (L := L)
    (env := heapSem L (parseO L) (badFor (Store.new style)) heap d) c hc
    (fun r hr => nested_sims (fun _ _ h _ => h) d r (h r hr))
  have := (hN N (Nat.le_refl _) rootCtx rootCtx_builtin).at (ps := []) (log := []) (s := St.init style heap) rfl
    (a := []) (u := []) ⟨⟨List.prefix_rfl, heapRel_refl heap⟩, rfl, rfl⟩
  rw [show (World.mk (Store.new style) (memory heap [])).s0 = Store.new style from rfl, badFor_new] at this
  exact returns_of_sim this

/-- What matching outcomes mean for `BuildQuery`. -/
theorem outMatches_cases {L : GoLib} {b : Builder} {style : Style} {heap : List QB} {c : Res Doc × List Val}
    (h : ∃ ps st o, commitAll (Store.new style) c.2 = some (ps, st) ∧
      Returns L b style heap o ∧ OutMatches ps st.args c.1 o) :
    match (motive := Res Doc × List Val → Prop) c with
    | (.ok d, vs) => ∃ ps st, commitAll (Store.new style) vs = some (ps, st) ∧ InRange ps d ∧
        Returns L b style heap (.ok (renderDoc ps d, st.args))
    | (.invalidIndex, _) => ∃ e, Returns L b style heap (.err e) ∧ e.isInvalidIndex = true
    | (.error, _) => ∃ e, Returns L b style heap (.err e) ∧ e.isInvalidIndex = false
    | (.panic, _) => ∃ p, Returns L b style heap (.panic p) := by
  obtain ⟨ps, st, o, h1, h2, h3⟩ := h
  rcases c with ⟨r, vs⟩
  cases r with
  | ok d =>
    cases o with
    | ok r => exact ⟨ps, st, h1, h3.2, by rw [← h3.1]; exact h2⟩
    | _ => exact h3.elim
  | invalidIndex =>
    cases o with
    | err e => exact ⟨e, h2, h3⟩
    | _ => exact h3.elim
  | error =>
    cases o with
    | err e => exact ⟨e, h2, h3⟩
    | _ => exact h3.elim
  | panic =>
    cases o with
    | panic p => exact ⟨p, h2⟩
    | _ => exact h3.elim

theorem outMatches_ok {L : GoLib} {b : Builder} {style : Style} {heap : List QB} {c : Res Doc × List Val}
    (h : ∃ ps st o, commitAll (Store.new style) c.2 = some (ps, st) ∧
      Returns L b style heap o ∧ OutMatches ps st.args c.1 o) {q : Str} {as : List Val}
    (hr : Returns L b style heap (.ok (q, as))) :
    ∃ d vs ps st, c = (.ok d, vs) ∧ commitAll (Store.new style) vs = some (ps, st) ∧ InRange ps d ∧
      q = renderDoc ps d ∧ as = st.args := by
  obtain ⟨ps, st, o, h1, h2, h3⟩ := h
  cases returns_unique hr h2
  rcases c with ⟨r, l⟩
  cases r with
  | ok d =>
    obtain ⟨h3, h4⟩ := h3
    simp only [Prod.mk.injEq] at h3
    exact ⟨d, l, ps, st, rfl, h1, h4, h3.1, h3.2⟩
  | invalidIndex => exact h3.elim
  | error => exact h3.elim
  | panic => exact h3.elim

end Sqlf

/-! ## Checks for concrete query builders -/

namespace Sqlf

open Spec

mutual
def noCodeCheck : Builder → Bool
  | .frag f => noCodeCheckF f
  | .column _ f => noCodeCheckF f
  | .custom _ => false
  | _ => true
def noCodeCheckF : Fragment → Bool
  | .mk _ _ frags _ _ => noCodeCheckL frags
def noCodeCheckL : List Builder → Bool
  | [] => true
  | b :: bs => noCodeCheck b && noCodeCheckL bs
end

mutual
theorem noCode_check : ∀ b, noCodeCheck b = true → NoCode b
  | .frag f, h => by rw [noCodeCheck] at h; rw [NoCode]; exact noCodeF_check f h
  | .column _ f, h => by rw [noCodeCheck] at h; rw [NoCode]; exact noCodeF_check f h
  | .custom _, h => by simp [noCodeCheck] at h
  | .table _, _ => by simp [NoCode]
  | .aliased _ _, _ => by simp [NoCode]
  | .nil, _ => by simp [NoCode]
  | .nilFrag, _ => by simp [NoCode]
  | .nilColumn, _ => by simp [NoCode]
  | .columnNilFrag _, _ => by simp [NoCode]
  | .nilQb, _ => by simp [NoCode]
  | .qb _, _ => by simp [NoCode]
theorem noCodeF_check : ∀ f, noCodeCheckF f = true → NoCodeF f
  | .mk _ _ frags _ _, h => by rw [noCodeCheckF] at h; rw [NoCodeF]; exact noCodeL_check frags h
theorem noCodeL_check : ∀ bs, noCodeCheckL bs = true → NoCodeL bs
  | [], _ => by rw [NoCodeL]; trivial
  | b :: bs, h => by
    rw [noCodeCheckL, Bool.and_eq_true] at h
    rw [NoCodeL]
    exact ⟨noCode_check b h.1, noCodeL_check bs h.2⟩
end

end Sqlf
