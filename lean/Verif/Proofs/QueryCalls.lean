import Verif.Proofs.QueryRel
import Verif.Proofs.CommitRel
import Verif.Proofs.Tidy
/-!
# Calls that differ in argument values make query builders that differ in argument values
-/

namespace Sqlf

open Spec

section
variable {R : Val → Val → Prop}

theorem sameQF_withFragments {f g : Fragment} (h : SameQF R f g) {bs cs : List Builder} (hb : SameQL R bs cs) :
    SameQF R (f.withFragments bs) (g.withFragments cs) := by
  cases f; cases g
  simp only [SameQF, Fragment.withFragments] at h ⊢
  exact ⟨h.1, h.2.1, hb, h.2.2.2⟩

theorem sameQF_appendFragments {f g : Fragment} (h : SameQF R f g) {bs cs : List Builder} (hb : SameQL R bs cs) :
    SameQF R (f.appendFragments bs) (g.appendFragments cs) := by
  cases f; cases g
  simp only [SameQF, Fragment.appendFragments] at h ⊢
  exact ⟨h.1, h.2.1, sameQL_pointwise.2 ((sameQL_pointwise.1 h.2.2.1).append (sameQL_pointwise.1 hb)), h.2.2.2⟩

theorem sameQF_withPrefix {f g : Fragment} (h : SameQF R f g) (p : Str) : SameQF R (f.withPrefix p) (g.withPrefix p) := by
  cases f; cases g
  simp only [SameQF, Fragment.withPrefix] at h ⊢
  exact ⟨h.1, h.2.1, h.2.2.1, trivial, h.2.2.2.2⟩

theorem sameQ_frag {f g : Fragment} : SameQ R (.frag f) (.frag g) ↔ SameQF R f g := by rw [SameQ]

theorem sameQL_one {b c : Builder} : SameQL R [b] [c] ↔ SameQ R b c := by simp [SameQL]

theorem sameQB_new : SameQB R QB.new QB.new := by
  constructor <;> first | exact .nil | rfl | skip
  all_goals first | (simp [QB.new, Fragment.F, Fragment.withPrefix, SameQF, SameQL]; exact .nil) | simp [QB.new, SameQL]

variable {b b' : QB} (h : SameQB R b b')
include h

theorem where_sameQ {f g : Option Fragment} (hf : SameOpt R f g) : SameQB R (b.where_ f) (b'.where_ g) := by
  cases f <;> cases g <;> try (exact hf.elim)
  · exact h
  · exact ⟨h.ctes, h.cells, h.tables, h.tablesDict, h.selects, h.touches,
      sameQF_appendFragments h.conditions (sameQL_one.2 (sameQ_frag.2 hf)), h.orders, h.groupbys, h.distinct, h.limit,
      h.offset, h.unions, h.errors⟩

theorem pushError_sameQ (e : Err) : SameQB R (b.pushError e) (b'.pushError e) :=
  ⟨h.ctes, h.cells, h.tables, h.tablesDict, h.selects, h.touches, h.conditions, h.orders, h.groupbys, h.distinct,
    h.limit, h.offset, h.unions, by show b.errors ++ [e] = b'.errors ++ [e]; rw [h.errors]⟩

theorem whereInOp_sameQ (op : Str) {c c' : Builder} (hc : SameQ R c c') {l l' : Val} (hl : SameLists R l l') {d : QB}
    (hd : b.whereInOp op c l = .ok d) : ∃ d', b'.whereInOp op c' l' = .ok d' ∧ SameQB R d d' := by
  obtain ⟨vs, vs', h1, h2, h3⟩ := hl
  unfold QB.whereInOp at hd ⊢
  rw [h1] at hd
  rw [h2]
  cases hd
  refine ⟨_, rfl, where_sameQ h ?_⟩
  simp only [SameOpt, Fragment.F, Fragment.withFragments, Fragment.withArgs, SameQF, true_and]
  exact ⟨h3, sameQL_one.2 hc, trivial⟩

theorem from_sameQ (t : TableAliased) : SameQB R (b.from_ t) (b'.from_ t) := by
  unfold QB.from_
  split
  · exact pushError_sameQ h _
  · have hl := h.cells.length
    refine ⟨h.ctes, h.cells.append (.cons ⟨rfl, rfl, ?_⟩ .nil), ?_, ?_, h.selects, h.touches, h.conditions, h.orders,
      h.groupbys, h.distinct, h.limit, h.offset, h.unions, h.errors⟩
    · simp [rowBuilder, SameQ, Fragment.F, SameQF, SameQL]; exact .nil
    · dsimp only; rw [h.tables, hl]
    · dsimp only; rw [h.tablesDict, hl]

omit h in
theorem pointwise_set {S : α → β → Prop} {l : List α} {m : List β} (h : Pointwise S l m) {a : α} {c : β} (hac : S a c) (n : Nat) :
    Pointwise S (l.set n a) (m.set n c) := by
  induction h generalizing n with
  | nil => exact .nil
  | cons h hs ih =>
    cases n with
    | zero => exact .cons hac hs
    | succ n => exact .cons h (ih n)

omit h in
theorem join_same1Q {b b' : QB} (h : SameQB R b b') (t : TableAliased) {cell cell' : FromTable} (hc : SameRow R cell cell') :
    SameQB R
      (match b.dictGet t.appliedName with
      | some ptr => { b with cells := b.cells.set ptr cell }
      | none => { b with cells := b.cells ++ [cell], tables := b.tables ++ [b.cells.length], tablesDict := (t.appliedName, b.cells.length) :: b.tablesDict })
      (match b'.dictGet t.appliedName with
      | some ptr => { b' with cells := b'.cells.set ptr cell' }
      | none => { b' with cells := b'.cells ++ [cell'], tables := b'.tables ++ [b'.cells.length], tablesDict := (t.appliedName, b'.cells.length) :: b'.tablesDict }) := by
  unfold QB.dictGet
  rw [h.tablesDict, h.cells.length, h.tables]
  split
  · exact ⟨h.ctes, pointwise_set h.cells hc _, rfl, rfl, h.selects, h.touches, h.conditions, h.orders,
      h.groupbys, h.distinct, h.limit, h.offset, h.unions, h.errors⟩
  · exact ⟨h.ctes, h.cells.append (.cons hc .nil), rfl, rfl, h.selects, h.touches, h.conditions, h.orders,
      h.groupbys, h.distinct, h.limit, h.offset, h.unions, h.errors⟩

theorem join_sameQ (kind : Str) (t : TableAliased) {on on' : Option Fragment} (ho : SameOpt R on on') (opt : Bool) {d : QB}
    (hd : b.join kind t on opt = .ok d) : ∃ d', b'.join kind t on' opt = .ok d' ∧ SameQB R d d' := by
  unfold QB.join at hd ⊢
  split at hd
  · rename_i ht
    rw [if_pos ht]
    cases hd
    exact ⟨_, rfl, pushError_sameQ h _⟩
  · rename_i ht
    rw [if_neg ht]
    cases on <;> cases on' <;> try (exact ho.elim)
    · cases hd
    · rename_i f g
      have h0 : SameQB R
          (if b.tables.length = 0 then { b with cells := b.cells ++ [⟨⟨[], []⟩, none, false⟩], tables := b.tables ++ [b.cells.length] } else b)
          (if b'.tables.length = 0 then { b' with cells := b'.cells ++ [⟨⟨[], []⟩, none, false⟩], tables := b'.tables ++ [b'.cells.length] } else b') := by
        rw [h.tables]
        split
        · exact ⟨h.ctes, h.cells.append (.cons ⟨rfl, rfl, by simp [rowBuilder, SameQ]⟩ .nil),
            by dsimp only; rw [h.cells.length], h.tablesDict, h.selects, h.touches, h.conditions, h.orders,
            h.groupbys, h.distinct, h.limit, h.offset, h.unions, h.errors⟩
        · exact h
      dsimp only at hd ⊢
      revert h0 hd
      generalize (if b.tables.length = 0 then { b with cells := b.cells ++ [⟨⟨[], []⟩, none, false⟩], tables := b.tables ++ [b.cells.length] } else b) = b1
      generalize (if b'.tables.length = 0 then { b' with cells := b'.cells ++ [⟨⟨[], []⟩, none, false⟩], tables := b'.tables ++ [b'.cells.length] } else b') = b1'
      intro hd h0
      have hj := join_same1Q h0 t
        (cell := { names := t, fragment := some (.Ff (kind ++ lit " " ++ QB.tableAndAlias t ++ lit " #f1") [.frag (f.withPrefix (lit "ON"))]), optional := opt })
        (cell' := { names := t, fragment := some (.Ff (kind ++ lit " " ++ QB.tableAndAlias t ++ lit " #f1") [.frag (g.withPrefix (lit "ON"))]), optional := opt })
        ⟨rfl, rfl, by
          simp only [rowBuilder, SameQ, Fragment.Ff, SameQF, true_and, and_true, SameQL]
          exact ⟨.nil, sameQF_withPrefix ho _⟩⟩
      revert hd hj
      have hg : b1.dictGet t.appliedName = b1'.dictGet t.appliedName := by
        unfold QB.dictGet; rw [h0.tablesDict]
      rw [hg]
      cases b1'.dictGet t.appliedName with
      | none => intro hd hj; cases hd; exact ⟨_, rfl, hj⟩
      | some ptr => intro hd hj; cases hd; exact ⟨_, rfl, hj⟩

theorem apply_sameQ {c c' : Call} (hc : SameCall R c c') {d : QB} (hd : c.apply b = .ok d) :
    ∃ d', c'.apply b' = .ok d' ∧ SameQB R d d' := by
  cases c <;> cases c' <;> simp only [SameCall] at hc <;> simp only [Call.apply] at hd ⊢
  case distinct => cases hd; exact ⟨_, rfl, ⟨h.ctes, h.cells, h.tables, h.tablesDict, h.selects, h.touches, h.conditions,
    h.orders, h.groupbys, rfl, h.limit, h.offset, h.unions, h.errors⟩⟩
  case select cs cs' =>
    cases hd
    refine ⟨_, rfl, ?_⟩
    unfold QB.select
    rw [(sameQL_pointwise.1 hc).length]
    split
    · exact h
    · exact ⟨h.ctes, h.cells, h.tables, h.tablesDict, sameQF_withFragments h.selects hc, h.touches, h.conditions,
        h.orders, h.groupbys, h.distinct, h.limit, h.offset, h.unions, h.errors⟩
  case limit =>
    cases hd; subst hc
    refine ⟨_, rfl, ?_⟩
    unfold QB.setLimit
    split
    · exact ⟨h.ctes, h.cells, h.tables, h.tablesDict, h.selects, h.touches, h.conditions,
        h.orders, h.groupbys, h.distinct, rfl, h.offset, h.unions, h.errors⟩
    · exact h
  case offset =>
    cases hd; subst hc
    refine ⟨_, rfl, ?_⟩
    unfold QB.setOffset
    split
    · exact ⟨h.ctes, h.cells, h.tables, h.tablesDict, h.selects, h.touches, h.conditions,
        h.orders, h.groupbys, h.distinct, h.limit, rfl, h.unions, h.errors⟩
    · exact h
  case groupBy => cases hd; exact ⟨_, rfl, ⟨h.ctes, h.cells, h.tables, h.tablesDict, h.selects, h.touches, h.conditions,
    h.orders, sameQF_appendFragments h.groupbys hc, h.distinct, h.limit, h.offset, h.unions, h.errors⟩⟩
  case orderBy => cases hd; exact ⟨_, rfl, ⟨h.ctes, h.cells, h.tables, h.tablesDict, h.selects, h.touches, h.conditions,
    h.orders.append (.cons ⟨hc.2, hc.1⟩ .nil), h.groupbys, h.distinct, h.limit, h.offset, h.unions, h.errors⟩⟩
  case union => cases hd; exact ⟨_, rfl, ⟨h.ctes, h.cells, h.tables, h.tablesDict, h.selects, h.touches, h.conditions,
    h.orders, h.groupbys, h.distinct, h.limit, h.offset,
    sameQL_pointwise.2 ((sameQL_pointwise.1 h.unions).append (sameQL_pointwise.1 hc)), h.errors⟩⟩
  case with_ => cases hd; exact ⟨_, rfl, ⟨h.ctes.append (.cons ⟨hc.1, hc.2.2, hc.2.1⟩ .nil), h.cells, h.tables, h.tablesDict,
    h.selects, h.touches, h.conditions, h.orders, h.groupbys, h.distinct, h.limit, h.offset, h.unions, h.errors⟩⟩
  case where_ => cases hd; exact ⟨_, rfl, where_sameQ h hc⟩
  case where2 =>
    cases hd
    obtain ⟨h1, rfl, h3⟩ := hc
    refine ⟨_, rfl, ⟨h.ctes, h.cells, h.tables, h.tablesDict, h.selects, h.touches,
      sameQF_appendFragments h.conditions (sameQL_one.2 (sameQ_frag.2 ?_)), h.orders, h.groupbys, h.distinct, h.limit,
      h.offset, h.unions, h.errors⟩⟩
    simp only [Fragment.F, Fragment.withFragments, Fragment.withArgs, SameQF, true_and]
    exact ⟨.cons h3 .nil, sameQL_one.2 h1, trivial⟩
  case whereIn => exact whereInOp_sameQ h _ hc.1 hc.2 hd
  case whereNotIn => exact whereInOp_sameQ h _ hc.1 hc.2 hd
  case from_ => cases hd; subst hc; exact ⟨_, rfl, from_sameQ h _⟩
  case innerJoin => obtain ⟨rfl, hc⟩ := hc; exact join_sameQ h _ _ hc _ hd
  case leftJoin => obtain ⟨rfl, hc⟩ := hc; exact join_sameQ h _ _ hc _ hd
  case leftJoinOptional => obtain ⟨rfl, hc⟩ := hc; exact join_sameQ h _ _ hc _ hd
  case rightJoin => obtain ⟨rfl, hc⟩ := hc; exact join_sameQ h _ _ hc _ hd
  case fullJoin => obtain ⟨rfl, hc⟩ := hc; exact join_sameQ h _ _ hc _ hd
  case crossJoin => subst hc; exact join_sameQ h _ _ (by simp [SameOpt]) _ hd
  case debug => cases hd; exact ⟨_, rfl, ⟨h.ctes, h.cells, h.tables, h.tablesDict, h.selects, h.touches, h.conditions,
    h.orders, h.groupbys, h.distinct, h.limit, h.offset, h.unions, h.errors⟩⟩

theorem runCalls_sameQ {cs cs' : List Call} (hc : Pointwise (SameCall R) cs cs') {d : QB} (hd : runCalls b cs = .ok d) :
    ∃ d', runCalls b' cs' = .ok d' ∧ SameQB R d d' := by
  induction hc generalizing b b' with
  | nil => cases hd; exact ⟨_, rfl, h⟩
  | @cons c c' cs cs' h1 _ ih =>
    unfold runCalls at hd ⊢
    cases ha : c.apply b with
    | ok d1 =>
      obtain ⟨d1', h2, h3⟩ := apply_sameQ h h1 ha
      rw [ha] at hd
      rw [h2]
      exact ih h3 hd
    | _ => rw [ha] at hd; cases hd

end

/-! ## Same queries -/

section
variable {R : Val → Val → Prop}

theorem Spec.ButForValues.qb {b b' : QB} (h : ButForValues R b b') : SameQB R b b' := by
  obtain ⟨cs, cs', h1, h2, h3⟩ := h
  obtain ⟨d, h4, h5⟩ := runCalls_sameQ sameQB_new h3 h1
  rw [h2] at h4
  cases h4
  exact h5

theorem sameCalls_debug {cs cs' : List Call} (h : Pointwise (SameCall R) cs cs') : debugIn cs = debugIn cs' := by
  induction h with
  | nil => rfl
  | @cons c c' _ _ h _ ih => cases c <;> cases c' <;> simp only [SameCall] at h <;> simp only [debugIn] <;> exact ih

mutual
theorem sameQ_noCode : ∀ (b c : Builder), SameQ R b c → NoCode b → NoCode c
  | .frag f, c, h, hn => by
    cases c <;> simp only [SameQ] at h
    rw [NoCode] at hn ⊢; exact sameQF_noCode _ _ h hn
  | .column _ f, c, h, hn => by
    cases c <;> simp only [SameQ] at h
    rw [NoCode] at hn ⊢; exact sameQF_noCode _ _ h.2 hn
  | .table t, c, h, hn => by cases c <;> simp only [SameQ] at h; simp [NoCode]
  | .aliased n a, c, h, hn => by cases c <;> simp only [SameQ] at h; simp [NoCode]
  | .nil, c, h, hn => by cases c <;> simp only [SameQ] at h; simp [NoCode]
  | .nilFrag, c, h, hn => by cases c <;> simp only [SameQ] at h; simp [NoCode]
  | .nilColumn, c, h, hn => by cases c <;> simp only [SameQ] at h; simp [NoCode]
  | .columnNilFrag _, c, h, hn => by cases c <;> simp only [SameQ] at h; simp [NoCode]
  | .nilQb, c, h, hn => by cases c <;> simp only [SameQ] at h; simp [NoCode]
  | .qb r, c, h, hn => by cases c <;> simp only [SameQ] at h; simp [NoCode]
  | .custom _, c, h, hn => by simp [NoCode] at hn
theorem sameQF_noCode : ∀ (f g : Fragment), SameQF R f g → NoCodeF f → NoCodeF g
  | .mk raw args frags pre suf, .mk raw' args' frags' pre' suf', h, hn => by
    rw [SameQF] at h; rw [NoCodeF] at hn ⊢; exact sameQL_noCode _ _ h.2.2.1 hn
theorem sameQL_noCode : ∀ (bs cs : List Builder), SameQL R bs cs → NoCodeL bs → NoCodeL cs
  | [], [], _, _ => by rw [NoCodeL]; trivial
  | [], _ :: _, h, _ => by simp [SameQL] at h
  | _ :: _, [], h, _ => by simp [SameQL] at h
  | b :: bs, c :: cs, h, hn => by
    rw [SameQL] at h; rw [NoCodeL] at hn ⊢
    exact ⟨sameQ_noCode _ _ h.1 hn.1, sameQL_noCode _ _ h.2 hn.2⟩
end

mutual
theorem sameQ_refs : ∀ (b c : Builder), SameQ R b c → qbRefs b = qbRefs c
  | .frag f, c, h => by
    cases c <;> simp only [SameQ] at h
    rw [qbRefs, qbRefs]; exact sameQF_refs _ _ h
  | .column _ f, c, h => by
    cases c <;> simp only [SameQ] at h
    rw [qbRefs, qbRefs]; exact sameQF_refs _ _ h.2
  | .table t, c, h => by cases c <;> simp only [SameQ] at h; simp [qbRefs]
  | .aliased n a, c, h => by cases c <;> simp only [SameQ] at h; simp [qbRefs]
  | .nil, c, h => by cases c <;> simp only [SameQ] at h; rfl
  | .nilFrag, c, h => by cases c <;> simp only [SameQ] at h; rfl
  | .nilColumn, c, h => by cases c <;> simp only [SameQ] at h; rfl
  | .columnNilFrag _, c, h => by cases c <;> simp only [SameQ] at h; simp [qbRefs]
  | .nilQb, c, h => by cases c <;> simp only [SameQ] at h; rfl
  | .qb r, c, h => by cases c <;> simp only [SameQ] at h; subst h; rfl
  | .custom _, c, h => by cases c <;> simp only [SameQ] at h; simp [qbRefs]
theorem sameQF_refs : ∀ (f g : Fragment), SameQF R f g → qbRefsF f = qbRefsF g
  | .mk raw args frags pre suf, .mk raw' args' frags' pre' suf', h => by
    rw [SameQF] at h; rw [qbRefsF, qbRefsF]; exact sameQL_refs _ _ h.2.2.1
theorem sameQL_refs : ∀ (bs cs : List Builder), SameQL R bs cs → qbRefsL bs = qbRefsL cs
  | [], [], _ => rfl
  | [], _ :: _, h => by simp [SameQL] at h
  | _ :: _, [], h => by simp [SameQL] at h
  | b :: bs, c :: cs, h => by
    rw [SameQL] at h; rw [qbRefsL, qbRefsL, sameQ_refs _ _ h.1, sameQL_refs _ _ h.2]
end

theorem partsOf_same {b b' : QB} (h : SameQB R b b') : Pointwise (SameQ R) (partsOf b) (partsOf b') := by
  unfold partsOf
  refine ((((((((h.ctes.map fun _ _ h => h.2.2).append ((SameQB.tableList h).map fun _ _ h => h.2.2)).append
    (sameQF_frags h.conditions)).append (sameQF_frags h.groupbys)).append (h.orders.map fun _ _ h => h.2)).append
    (sameQF_frags h.selects)).append (sameQF_frags h.touches)).append (sameQL_pointwise.1 h.unions))

theorem pointwise_mem {S : α → β → Prop} {l : List α} {m : List β} (h : Pointwise S l m) {y : β} (hy : y ∈ m) :
    ∃ x ∈ l, S x y := by
  induction h with
  | nil => cases hy
  | cons h _ ih =>
    rcases List.mem_cons.1 hy with rfl | hy
    · exact ⟨_, by simp, h⟩
    · obtain ⟨x, h1, h2⟩ := ih hy
      exact ⟨x, by simp [h1], h2⟩

theorem Spec.ButForValues.made (L : GoLib) {b b' : QB} (h : ButForValues R b b') {cs : List Call} (hm : Made L cs b)
    (hd : debugIn cs = false) (hn : NoCodeL (partsOf b)) : ∃ cs', Made L cs' b' ∧ debugIn cs' = false ∧ (Repeatable cs → Repeatable cs') ∧
      NoCodeL (partsOf b') ∧ qbRefsL (partsOf b') = qbRefsL (partsOf b) := by
  have hq := h.qb
  obtain ⟨ds, ds', h1, h2, h3⟩ := h
  have hp := sameQL_pointwise.2 (partsOf_same hq)
  have hm1 : Made L ds b := made_of_calls h1
  have hm2 : Made L ds' b' := made_of_calls h2
  refine ⟨ds', hm2, ?_, ?_, sameQL_noCode _ _ hp hn, (sameQL_refs _ _ hp).symm⟩
  · rw [← sameCalls_debug h3, ← made_debug hm1, made_debug hm, hd]
  · rintro ⟨hr1, hr2⟩
    have hf := hm.fields
    have hf2 := hm2.fields
    unfold Repeatable
    rw [← hf2.orders, ← hf2.distinct, ← hq.distinct, hf.distinct]
    rw [← hf.orders] at hr1 hr2
    constructor
    · intro o ho
      obtain ⟨o', h1, h2⟩ := pointwise_mem hq.orders ho
      rw [← h2.1]
      exact hr1 o' h1
    · rcases hr2 with hr2 | hr2
      · exact .inl hr2
      · right
        have := hq.orders.length
        rw [hr2] at this
        exact List.length_eq_zero_iff.1 this.symm

theorem nested_same (L : GoLib) {heap heap' : List QB} (h : Pointwise (ButForValues R) heap heap') (depth r : Nat)
    (hn : NestedIn (Nestable L) heap depth r) : NestedIn (Nestable L) heap' depth r := by
  induction depth generalizing r with
  | zero => exact hn
  | succ d ih =>
    obtain ⟨b, h1, ⟨cs, h2, h3, h4, h5⟩, h6⟩ := hn
    rcases h.get r with ⟨h7, h8⟩ | ⟨x, b', h7, h8, h9⟩
    · rw [h7] at h1; cases h1
    · rw [h1] at h7
      cases h7
      obtain ⟨cs', m1, m2, m3, m4, m5⟩ := h9.made L h2 h4 h5
      exact ⟨b', h8, ⟨cs', m1, m3 h3, m2, m4⟩, fun r' hr => ih r' (h6 r' (m5 ▸ hr))⟩

theorem queryAt_same (L : GoLib) {heap heap' : List QB} (h : Pointwise (ButForValues R) heap heap') (depth r : Nat)
    (hn : QueryAt L heap depth r) : QueryAt L heap' depth r := by
  obtain ⟨b, cs, h1, h2, h3, h4, h5⟩ := hn
  rcases h.get r with ⟨h7, h8⟩ | ⟨x, b', h7, h8, h9⟩
  · rw [h7] at h1; cases h1
  · rw [h1] at h7
    cases h7
    obtain ⟨cs', m1, m2, -, m4, m5⟩ := h9.made L h2 h3 h4
    exact ⟨b', cs', h8, m1, m2, m4, fun r' hr => nested_same L h _ r' (h5 r' (m5 ▸ hr))⟩

end

/-! ## A query builder compared with itself -/

section
variable {R : Val → Val → Prop} {P : Val → Prop} (hR : ∀ v, P v → R v v)
include hR

mutual
theorem sameQ_self : ∀ b, NoCode b → AllVals P b → SameQ R b b
  | .frag f, hn, ha => by rw [SameQ]; rw [NoCode] at hn; rw [AllVals] at ha; exact sameQF_self f hn ha
  | .column _ f, hn, ha => by rw [SameQ]; rw [NoCode] at hn; rw [AllVals] at ha; exact ⟨rfl, sameQF_self f hn ha⟩
  | .table t, _, _ => by rw [SameQ]
  | .aliased n a, _, _ => by rw [SameQ]; exact ⟨rfl, rfl⟩
  | .nil, _, _ => by simp [SameQ]
  | .nilFrag, _, _ => by simp [SameQ]
  | .nilColumn, _, _ => by simp [SameQ]
  | .columnNilFrag _, _, _ => by simp [SameQ]
  | .nilQb, _, _ => by simp [SameQ]
  | .qb _, _, _ => by simp [SameQ]
  | .custom _, hn, _ => by simp [NoCode] at hn
theorem sameQF_self : ∀ f, NoCodeF f → AllValsF P f → SameQF R f f
  | .mk raw args frags pre suf, hn, ha => by
    rw [SameQF]; rw [NoCodeF] at hn; rw [AllValsF] at ha
    exact ⟨rfl, Pointwise.refl fun v hv => hR v (ha.1 v hv), sameQL_self frags hn ha.2, rfl, rfl⟩
theorem sameQL_self : ∀ bs, NoCodeL bs → AllValsL P bs → SameQL R bs bs
  | [], _, _ => by simp [SameQL]
  | b :: bs, hn, ha => by
    rw [SameQL]; rw [NoCodeL] at hn; rw [AllValsL] at ha
    exact ⟨sameQ_self b hn.1 ha.1, sameQL_self bs hn.2 ha.2⟩
end

theorem sameQL_over {bs : List Builder} (h : ∀ b ∈ bs, Over P b) : SameQL R bs bs :=
  sameQL_pointwise.2 (Pointwise.refl fun b hb => sameQ_self hR b (h b hb).1 (h b hb).2)

theorem sameOpt_over {f : Option Fragment} (h : ∀ g, f = some g → Over P (.frag g)) : SameOpt R f f := by
  cases f with
  | none => trivial
  | some g => exact sameQ_frag.1 (sameQ_self hR _ (h g rfl).1 (h g rfl).2)

theorem sameLists_over {l : Val} (h : ∃ vs, argsFlatted [l] = .ok vs ∧ ∀ v ∈ vs, P v) : SameLists R l l := by
  obtain ⟨vs, h1, h2⟩ := h
  exact ⟨vs, vs, h1, h1, Pointwise.refl fun v hv => hR v (h2 v hv)⟩

theorem sameCall_self {c : Call} (h : CallOver P c) : SameCall R c c := by
  cases c <;> simp only [SameCall, CallOver] at h ⊢
  case select => exact sameQL_over hR h
  case groupBy => exact sameQL_over hR h
  case union => exact sameQL_over hR h
  case orderBy => exact ⟨sameQ_self hR _ h.1 h.2, trivial⟩
  case with_ => exact ⟨trivial, sameQ_self hR _ h.1 h.2, trivial⟩
  case where_ => exact sameOpt_over hR h
  case where2 => exact ⟨sameQ_self hR _ h.1.1 h.1.2, trivial, hR _ h.2⟩
  case whereIn => exact ⟨sameQ_self hR _ h.1.1 h.1.2, sameLists_over hR h.2⟩
  case whereNotIn => exact ⟨sameQ_self hR _ h.1.1 h.1.2, sameLists_over hR h.2⟩
  all_goals exact ⟨trivial, sameOpt_over hR h⟩

theorem butForValues_self {cs : List Call} {b : QB} (h : runCalls QB.new cs = .ok b) (hc : ∀ c ∈ cs, CallOver P c) :
    ButForValues R b b := ⟨cs, cs, h, h, Pointwise.refl fun c hm => sameCall_self hR (hc c hm)⟩

end

/-! ## Consequences for `BuildQuery` -/

theorem queryMeaning_rel {R : Val → Val → Prop} {style1 style2 : Style} (L : GoLib)
    (hbad : ∀ v w, R v w → cannotCommit style1 v = cannotCommit style2 w) {heap heap' : List QB}
    (h : Pointwise (ButForValues R) heap heap') (depth r : Nat) :
    ResR 0 0 (queryMeaning L style1 heap depth r).1 (queryMeaning L style2 heap' depth r).1 ∧
      LogR R [] [] (queryMeaning L style1 heap depth r).2 (queryMeaning L style2 heap' depth r).2 :=
  heapSem_rel hbad L _ (h.mono fun _ _ h => h.qb) (depth + 1) r [] []

theorem builderMeaning_rel {R : Val → Val → Prop} {style1 style2 : Style} (L : GoLib)
    (hbad : ∀ v w, R v w → cannotCommit style1 v = cannotCommit style2 w) {heap heap' : List QB}
    (h : Pointwise (ButForValues R) heap heap') (depth : Nat) {b b' : Builder} (hb : SameQ R b b') :
    ResR 0 0 (builderMeaning L style1 heap depth b).1 (builderMeaning L style2 heap' depth b').1 ∧
      LogR R [] [] (builderMeaning L style1 heap depth b).2 (builderMeaning L style2 heap' depth b').2 :=
  semQ_rel hbad L _ (heapSem_rel hbad L _ (h.mono fun _ _ h => h.qb) depth) b b' hb [] []

/-- Related meanings in the same style: the same text, related arguments. -/
theorem same_text_of {L : GoLib} {R : Val → Val → Prop} {style : Style} (hR : style = dollar → Compat R)
    {b b' : Builder} {heap heap' : List QB} {c c' : Res Doc × List Val}
    (h : ∃ ps st o, commitAll (Store.new style) c.2 = some (ps, st) ∧
      Returns L b style heap o ∧ OutMatches ps st.args c.1 o)
    (h' : ∃ ps st o, commitAll (Store.new style) c'.2 = some (ps, st) ∧
      Returns L b' style heap' o ∧ OutMatches ps st.args c'.1 o)
    (hrel : ResR 0 0 c.1 c'.1 ∧ LogR R [] [] c.2 c'.2) {q : Str} {as : List Val}
    (hr : Returns L b style heap (.ok (q, as))) :
    ∃ as', Returns L b' style heap' (.ok (q, as')) ∧ Pointwise R as as' := by
  obtain ⟨d, log, ps, st, rfl, h2, h3, rfl, rfl⟩ := outMatches_ok h hr
  obtain ⟨hr, δ1, δ2, h4, h5, hp⟩ := hrel
  simp only [List.nil_append] at h4 h5
  rcases c' with ⟨r', log'⟩
  simp only at h5 h4
  subst h5 h4
  cases r' with
  | ok d' =>
    obtain ⟨e, rfl, rfl⟩ := hr
    obtain ⟨st', h6, h7⟩ := commitAll_rel (storeR_new R style)
      (by intro hd; apply hR; simpa [Store.new] using hd) hp h2
    obtain ⟨ps', st'', o, h8, h9, h10⟩ := h'
    rw [h6] at h8
    cases h8
    cases o with
    | ok x =>
      obtain ⟨rfl, -⟩ := h10
      exact ⟨_, h9, h7.args⟩
    | _ => exact h10.elim
  | invalidIndex => exact hr.elim
  | error => exact hr.elim
  | panic => exact hr.elim

/-- Related meanings in the two styles: the same document. -/
theorem styles_agree_of {L : GoLib} {b : Builder} {heap : List QB} {c c' : Res Doc × List Val}
    (h : ∃ ps st o, commitAll (Store.new question) c.2 = some (ps, st) ∧
      Returns L b question heap o ∧ OutMatches ps st.args c.1 o)
    (h' : ∃ ps st o, commitAll (Store.new dollar) c'.2 = some (ps, st) ∧
      Returns L b dollar heap o ∧ OutMatches ps st.args c'.1 o)
    (hrel : ResR 0 0 c.1 c'.1 ∧ LogR (fun v w => v = w ∧ v.hashable = true) [] [] c.2 c'.2) :
    (∃ d vs ps as, Returns L b question heap (.ok (renderDoc (List.replicate vs.length (lit "?")) d, vs)) ∧
      Returns L b dollar heap (.ok (renderDoc ps d, as)) ∧
      ∀ k ∈ binds d, ∃ n v w, ps[k]? = some (dollarMark n) ∧ vs[k]? = some v ∧
        1 ≤ n ∧ as[n - 1]? = some w ∧ (w = v ∨ w.goEq v = true)) ∨
    (∃ e e', Returns L b question heap (.err e) ∧ Returns L b dollar heap (.err e') ∧
      e.isInvalidIndex = e'.isInvalidIndex) ∨
    (∃ p p', Returns L b question heap (.panic p) ∧ Returns L b dollar heap (.panic p')) := by
  have hq := outMatches_cases h
  have hd := outMatches_cases h'
  clear h h'
  rcases c with ⟨r1, l1⟩
  rcases c' with ⟨r2, l2⟩
  obtain ⟨hr, δ1, δ2, h1, h2, hp⟩ := hrel
  have hδ : δ1 = δ2 := (hp.mono fun a b h => h.1).eq
  subst hδ
  simp only [List.nil_append] at h1 h2
  subst h1 h2
  cases r1 <;> cases r2 <;> try (exact hr.elim)
  · left
    obtain ⟨e, rfl, rfl⟩ := hr
    obtain ⟨ps, st, h1, h8, h2⟩ := hd
    obtain ⟨ps', st', h3, -, h4⟩ := hq
    rw [commitAll_question _ _ rfl] at h3
    cases h3
    refine ⟨_, l2, ps, st.args, h4, h2, fun k hk => ?_⟩
    have hlt := h8 k hk
    rw [commitAll_length h1] at hlt
    obtain ⟨j, w, hp, hw, he⟩ := commitAll_resolve (Store.new_inv dollar) rfl h1 k l2[k] (by simp [hlt])
    exact ⟨j + 1, l2[k], w, hp, by simp [hlt], by omega, by simpa using hw, he⟩
  · right; left
    obtain ⟨e, h1, h2⟩ := hq
    obtain ⟨e', h3, h4⟩ := hd
    exact ⟨e, e', h1, h3, by rw [h2, h4]⟩
  · right; left
    obtain ⟨e, h1, h2⟩ := hq
    obtain ⟨e', h3, h4⟩ := hd
    exact ⟨e, e', h1, h3, by rw [h2, h4]⟩
  · right; right
    obtain ⟨p, h1⟩ := hq
    obtain ⟨p', h3⟩ := hd
    exact ⟨p, p', h1, h3⟩

/-! ## Checks for concrete calls -/

mutual
def valsCheck (p : Val → Bool) : Builder → Bool
  | .frag f => valsCheckF p f
  | .column _ f => valsCheckF p f
  | _ => true
def valsCheckF (p : Val → Bool) : Fragment → Bool
  | .mk _ args frags _ _ => args.all p && valsCheckL p frags
def valsCheckL (p : Val → Bool) : List Builder → Bool
  | [] => true
  | b :: bs => valsCheck p b && valsCheckL p bs
end

mutual
theorem vals_check {p : Val → Bool} : ∀ b, valsCheck p b = true → AllVals (fun v => p v = true) b
  | .frag f, h => by rw [valsCheck] at h; rw [AllVals]; exact valsF_check f h
  | .column _ f, h => by rw [valsCheck] at h; rw [AllVals]; exact valsF_check f h
  | .custom _, _ => by simp [AllVals]
  | .table _, _ => by simp [AllVals]
  | .aliased _ _, _ => by simp [AllVals]
  | .nil, _ => by simp [AllVals]
  | .nilFrag, _ => by simp [AllVals]
  | .nilColumn, _ => by simp [AllVals]
  | .columnNilFrag _, _ => by simp [AllVals]
  | .nilQb, _ => by simp [AllVals]
  | .qb _, _ => by simp [AllVals]
theorem valsF_check {p : Val → Bool} : ∀ f, valsCheckF p f = true → AllValsF (fun v => p v = true) f
  | .mk _ args frags _ _, h => by
    rw [valsCheckF, Bool.and_eq_true] at h
    rw [AllValsF]
    exact ⟨fun v hv => List.all_eq_true.1 h.1 v hv, valsL_check frags h.2⟩
theorem valsL_check {p : Val → Bool} : ∀ bs, valsCheckL p bs = true → AllValsL (fun v => p v = true) bs
  | [], _ => by rw [AllValsL]; trivial
  | b :: bs, h => by
    rw [valsCheckL, Bool.and_eq_true] at h
    rw [AllValsL]
    exact ⟨vals_check b h.1, valsL_check bs h.2⟩
end

def overCheck (p : Val → Bool) (b : Builder) : Bool := noCodeCheck b && valsCheck p b

theorem over_check {p : Val → Bool} {b : Builder} (h : overCheck p b = true) : Over (fun v => p v = true) b := by
  unfold overCheck at h
  rw [Bool.and_eq_true] at h
  exact ⟨noCode_check b h.1, vals_check b h.2⟩

def listCheck (p : Val → Bool) (l : Val) : Bool :=
  match argsFlatted [l] with
  | .ok vs => vs.all p
  | _ => false

def optCheck (p : Val → Bool) : Option Fragment → Bool
  | none => true
  | some g => overCheck p (.frag g)

def callCheck (p : Val → Bool) : Call → Bool
  | .select cs => cs.all (overCheck p)
  | .groupBy cs => cs.all (overCheck p)
  | .orderBy c _ => overCheck p c
  | .union bs => bs.all (overCheck p)
  | .with_ _ b _ => overCheck p b
  | .where_ f => optCheck p f
  | .where2 c _ v => overCheck p c && p v
  | .whereIn c l => overCheck p c && listCheck p l
  | .whereNotIn c l => overCheck p c && listCheck p l
  | .innerJoin _ on => optCheck p on
  | .leftJoin _ on => optCheck p on
  | .leftJoinOptional _ on => optCheck p on
  | .rightJoin _ on => optCheck p on
  | .fullJoin _ on => optCheck p on
  | _ => true

theorem list_check {p : Val → Bool} {l : Val} (h : listCheck p l = true) :
    ∃ vs, argsFlatted [l] = .ok vs ∧ ∀ v ∈ vs, p v = true := by
  unfold listCheck at h
  split at h
  · rename_i vs hv; exact ⟨vs, hv, fun v hv => List.all_eq_true.1 h v hv⟩
  · cases h

theorem opt_check {p : Val → Bool} {f : Option Fragment} (h : optCheck p f = true) :
    ∀ g, f = some g → Over (fun v => p v = true) (.frag g) := by
  rintro g rfl
  exact over_check h

theorem call_check {p : Val → Bool} {c : Call} (h : callCheck p c = true) : CallOver (fun v => p v = true) c := by
  cases c <;> simp only [callCheck, CallOver, Bool.and_eq_true, List.all_eq_true] at h ⊢
  case select => exact fun c hc => over_check (h c hc)
  case groupBy => exact fun c hc => over_check (h c hc)
  case union => exact fun c hc => over_check (h c hc)
  case orderBy => exact over_check h
  case with_ => exact over_check h
  case where2 => exact ⟨over_check h.1, h.2⟩
  case whereIn => exact ⟨over_check h.1, list_check h.2⟩
  case whereNotIn => exact ⟨over_check h.1, list_check h.2⟩
  all_goals exact opt_check h

theorem calls_check {p : Val → Bool} {cs : List Call} (h : cs.all (callCheck p) = true) :
    ∀ c ∈ cs, CallOver (fun v => p v = true) c := fun c hc => call_check (List.all_eq_true.1 h c hc)

end Sqlf
