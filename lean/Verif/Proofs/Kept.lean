import Verif.Spec.Kept
import Verif.Proofs.Memory
import Verif.Proofs.Dest
/-!
# Lemmas: the slices of a query builder
-/

namespace Sqlf

open Spec

/-- The slices of the query builder with arrays of builders. -/
def SQB.slots (q : SQB) : List Slice := [q.selects, q.groupbys, q.unions]

/-- The query builder has arrays of its own. -/
structure SQMem.Inv (m : SQMem) : Prop where
  slices : SliceInv m.blds m.q.slots
  own : ∀ s ∈ m.q.slots, 0 < s.cap → s.arr ∉ m.mineB
  mine : ∀ k ∈ m.mineB, k < m.blds.length
  deps : ∀ c ∈ m.q.ctes, InBounds m.names c.2.2

theorem modify_inBounds {A : List (List α)} {s : Slice} (h : InBounds A s) (k i : Nat) (x : α) : InBounds (A.modify k (·.set i x)) s := by
  refine ⟨h.1, fun hc => ?_⟩
  obtain ⟨a, ha, hl⟩ := h.2 hc
  rw [List.getElem?_modify, ha]
  by_cases hk : k = s.arr
  · exact ⟨a.set i x, by simp [hk], by simpa using hl⟩
  · exact ⟨a, by simp [hk], hl⟩

theorem modify_place (A : List (List α)) (k i : Nat) (x : α) (k' i' : Nat) (h : ¬ (k' = k ∧ i' = i)) :
    place (A.modify k (·.set i x)) k' i' = place A k' i' := by
  unfold place
  rw [List.getElem?_modify]
  by_cases hk : k = k'
  · subst hk
    cases A[k]? with
    | none => rfl
    | some a =>
      simp only [Option.map_eq_map, if_true, Option.map_some, Option.bind_some]
      rw [List.getElem?_set_ne (fun e => h ⟨rfl, e.symm⟩)]
  · simp [hk]

theorem append_arr (grow : Nat → Nat) (z : α) (A : List (List α)) (s : Slice) (xs : List α) :
    ((s.append grow z A xs).2.arr = s.arr ∧ (s.append grow z A xs).2.cap = s.cap ∧ (s.append grow z A xs).1.length = A.length) ∨
      ((s.append grow z A xs).2.arr = A.length ∧ (s.append grow z A xs).1.length = A.length + 1) := by
  unfold Slice.append
  split
  · exact .inl ⟨rfl, rfl, by simp⟩
  · exact .inr ⟨rfl, by simp [Slice.alloc]⟩

/-- Appending to one slice of the query builder. -/
structure Appended (mine : List Nat) (A B : List (List Builder)) (ss : List Slice) (p : Nat) (s t : Slice) (xs : List Builder) : Prop where
  inv : SliceInv B (ss.set p t)
  read : t.read B = s.read A ++ xs
  others : ∀ (q : Nat) (u : Slice), q ≠ p → ss[q]? = some u → u.read B = u.read A
  own : 0 < t.cap → t.arr ∉ mine
  longer : A.length ≤ B.length

theorem append_appended (grow : Nat → Nat) {mine : List Nat} {A : List (List Builder)} {ss : List Slice} {p : Nat} {s : Slice}
    (h : SliceInv A ss) (hp : ss[p]? = some s) (ho : 0 < s.cap → s.arr ∉ mine) (hm : ∀ k ∈ mine, k < A.length) (xs : List Builder) :
    Appended mine A (s.append grow .nil A xs).1 ss p s (s.append grow .nil A xs).2 xs := by
  obtain ⟨h1, h2, h3⟩ := Slice.append_spec h grow .nil p s hp xs
  refine ⟨h1, h2, h3, ?_, ?_⟩
  · rcases append_arr grow Builder.nil A s xs with ⟨h4, h5, -⟩ | ⟨h4, -⟩
    · rw [h4, h5]; exact ho
    · rw [h4]; exact fun _ hk => Nat.lt_irrefl _ (hm _ hk)
  · rcases append_arr grow Builder.nil A s xs with ⟨-, -, h6⟩ | ⟨-, h6⟩ <;> omega

theorem appendEach_appended (grow : Nat → Nat) {mine : List Nat} : ∀ (xs : List Builder) {A : List (List Builder)} {ss : List Slice} {p : Nat} {s : Slice},
    SliceInv A ss → ss[p]? = some s → (0 < s.cap → s.arr ∉ mine) → (∀ k ∈ mine, k < A.length) →
    Appended mine A (appendEach grow xs A s).1 ss p s (appendEach grow xs A s).2 xs
  | [], A, ss, p, s, h, hp, ho, hm => by
    have hlt := (List.getElem?_eq_some_iff.1 hp).1
    have : ss.set p s = ss := by
      rw [← (List.getElem?_eq_some_iff.1 hp).2, List.set_getElem_self]
    exact ⟨by simpa [appendEach, this] using h, by simp [appendEach], fun _ _ _ _ => rfl, ho, Nat.le_refl _⟩
  | x :: xs, A, ss, p, s, h, hp, ho, hm => by
    have h1 := append_appended grow h hp ho hm [x]
    have hlt := (List.getElem?_eq_some_iff.1 hp).1
    have h2 := appendEach_appended grow (mine := mine) xs (p := p) h1.inv (by rw [List.getElem?_set_self hlt]) h1.own
      (fun k hk => Nat.lt_of_lt_of_le (hm k hk) h1.longer)
    unfold appendEach
    refine ⟨by simpa using h2.inv, by rw [h2.read, h1.read]; simp, fun q u hq hu => ?_, h2.own, Nat.le_trans h1.longer h2.longer⟩
    rw [h2.others q u hq (by rw [List.getElem?_set_ne (fun e => hq e.symm)]; exact hu), h1.others q u hq hu]

theorem runCalls_snoc (b : QB) (cs : List Call) (c : Call) : runCalls b (cs ++ [c]) = match runCalls b cs with
    | .ok b' => c.apply b'
    | o => o := by
  induction cs generalizing b with
  | nil =>
    show runCalls b [c] = c.apply b
    simp only [runCalls]
    cases c.apply b <;> rfl
  | cons d cs ih =>
    simp only [List.cons_append, runCalls]
    cases d.apply b with
    | ok b' => exact ih b'
    | err e => rfl
    | panic p => rfl
    | oof => rfl

private theorem new_inv : SQMem.new.Inv := by
  have hb : ∀ (A : List (List Builder)), InBounds A Slice.nil := fun A => ⟨Nat.le_refl _, fun h => absurd h (Nat.lt_irrefl 0)⟩
  have hs : ∀ (i : Nat) (s : Slice), SQMem.new.q.slots[i]? = some s → s = .nil := by
    intro i s h
    have := List.mem_of_getElem? h
    simp [SQMem.new, SQB.slots] at this
    exact this
  refine ⟨⟨fun i s h => hs i s h ▸ hb _, fun i j s s' _ h _ => ?_⟩, fun s h hc => ?_, fun k h => ?_, fun c h => ?_⟩
  · rw [hs i s h]
    intro _ hl
    exact absurd hl (Nat.lt_irrefl 0)
  · simp [SQMem.new, SQB.slots] at h
    subst h
    exact absurd hc (Nat.lt_irrefl 0)
  · simp [SQMem.new] at h
  · simp [SQMem.new] at h

/-- A query builder with other columns, groups, unions and CTEs. -/
private def over (b : QB) (f g u : List Builder) (c : List Cte) : QB :=
  { b with selects := b.selects.withFragments f, groupbys := b.groupbys.withFragments g, unions := u, ctes := c }

private theorem join_over (b : QB) (j : Str) (t : TableAliased) (on : Option Fragment) (o : Bool) (f g u : List Builder) (c : List Cte) :
    (over b f g u c).join j t on o = (match b.join j t on o with
      | .ok b' => .ok (over b' f g u c)
      | o => o) := by
  unfold QB.join
  split
  · rfl
  · cases on with
    | none => split <;> rfl
    | some on =>
      by_cases ht : b.tables.length = 0
      · simp only [over, ht, if_true, QB.dictGet]
        cases (b.tablesDict.find? fun p => p.1 = t.appliedName).map (·.2) <;> rfl
      · simp only [over, ht, if_false, QB.dictGet]
        cases (b.tablesDict.find? fun p => p.1 = t.appliedName).map (·.2) <;> rfl

private theorem apply_over (d : Call) (hd : NoSlice d) (b : QB) (f g u : List Builder) (c : List Cte) :
    d.apply (over b f g u c) = (match d.apply b with
      | .ok b' => .ok (over b' f g u c)
      | o => o) := by
  cases d with
  | select _ => cases hd
  | groupBy _ => cases hd
  | union _ => cases hd
  | with_ _ _ _ => cases hd
  | innerJoin t on => exact join_over ..
  | leftJoin t on => exact join_over ..
  | leftJoinOptional t on => exact join_over ..
  | rightJoin t on => exact join_over ..
  | fullJoin t on => exact join_over ..
  | crossJoin t => exact join_over b (lit "CROSS JOIN") t none false f g u c
  | limit n => simp only [Call.apply, QB.setLimit]; split <;> rfl
  | offset n => simp only [Call.apply, QB.setOffset]; split <;> rfl
  | orderBy col o => rfl
  | where_ f => cases f <;> rfl
  | from_ t => simp only [Call.apply, QB.from_]; split <;> rfl
  | whereIn col v => simp only [Call.apply, QB.whereIn, QB.whereInOp]; cases argsFlatted [v] <;> rfl
  | whereNotIn col v => simp only [Call.apply, QB.whereNotIn, QB.whereInOp]; cases argsFlatted [v] <;> rfl
  | where2 col op v => rfl
  | distinct => rfl
  | debug => rfl

private theorem seenNow_eq (m : SQMem) : seenNow m = over m.q.rest (m.q.selects.read m.blds) (m.q.groupbys.read m.blds) (m.q.unions.read m.blds)
    (m.q.ctes.map fun c => Cte.mk c.1 (c.2.2.read m.names) c.2.1) := rfl

private theorem over_congr {b : QB} {f g u f' g' u' : List Builder} {c c' : List Cte} (h1 : f = f') (h2 : g = g') (h3 : u = u') (h4 : c = c') :
    over b f g u c = over b f' g' u' c' := by rw [h1, h2, h3, h4]

/-- One step: what the query builder holds is what the call with the elements says. -/
private theorem step_holds (grow : Nat → Nat) {m : SQMem} (hi : m.Inv) (o : QOp) (ho : Considerate m o) :
    (o.run grow m).Inv ∧ runCalls (seenNow m) (callNow m o).toList = .ok (seenNow (o.run grow m)) := by
  have hbounds : ∀ s ∈ m.q.slots, InBounds m.blds s := fun s hs => by
    obtain ⟨i, h⟩ := List.getElem?_of_mem hs
    exact hi.slices.bounds i s h
  have b1 := hbounds m.q.selects (by simp [SQB.slots])
  have b2 := hbounds m.q.groupbys (by simp [SQB.slots])
  have b3 := hbounds m.q.unions (by simp [SQB.slots])
  cases o with
  | arrayB xs =>
    refine ⟨⟨hi.slices.append _, fun s hs hc hm => ?_, fun k hk => ?_, hi.deps⟩, congrArg Out.ok (over_congr ?_ ?_ ?_ rfl)⟩
    · rcases List.mem_cons.1 hm with h | h
      · exact Nat.lt_irrefl _ (h ▸ (hbounds s hs).lt hc)
      · exact hi.own s hs hc h
    · rw [QOp.run, List.length_append, List.length_singleton]
      rcases List.mem_cons.1 hk with h | h
      · omega
      · have := hi.mine k h; omega
    · exact (b1.read_append _).symm
    · exact (b2.read_append _).symm
    · exact (b3.read_append _).symm
  | arrayN xs =>
    refine ⟨⟨hi.slices, hi.own, hi.mine, fun c hc => (hi.deps c hc).append _⟩, congrArg Out.ok (over_congr rfl rfl rfl ?_)⟩
    exact List.map_congr_left fun c hc => by rw [QOp.run, (hi.deps c hc).read_append]
  | assignB k i x =>
    simp only [QOp.run]
    split
    · next hk =>
      have hread : ∀ s ∈ m.q.slots, s.read (m.blds.modify k (·.set i x)) = s.read m.blds := by
        intro s hs
        refine read_congr fun j h1 h2 => modify_place _ _ _ _ _ _ ?_
        rintro ⟨rfl, -⟩
        have := (hbounds s hs).1
        exact hi.own s hs (by omega) hk
      exact ⟨⟨⟨fun i s h => modify_inBounds (hi.slices.bounds i s h) _ _ _, hi.slices.alone⟩, hi.own, fun k hk => by
        rw [List.length_modify]; exact hi.mine k hk, hi.deps⟩, congrArg Out.ok (over_congr
        (hread _ (by simp [SQB.slots])).symm (hread _ (by simp [SQB.slots])).symm
        (hread _ (by simp [SQB.slots])).symm rfl)⟩
    · exact ⟨hi, rfl⟩
  | assignN k i x =>
    simp only [QOp.run]
    split
    · refine ⟨⟨hi.slices, hi.own, hi.mine, fun c hc => modify_inBounds (hi.deps c hc) _ _ _⟩, congrArg Out.ok (over_congr rfl rfl rfl ?_)⟩
      refine List.map_congr_left fun c hc => ?_
      congr 1
      refine (read_congr fun j h1 h2 => modify_place _ _ _ _ _ _ ?_).symm
      rintro ⟨h3, rfl⟩
      exact ho c hc ⟨h3, h1, h2⟩
    · exact ⟨hi, rfl⟩
  | select g =>
    simp only [QOp.run]
    split
    · next hl =>
      refine ⟨hi, ?_⟩
      simp only [callNow, Option.toList_some, runCalls, Call.apply, QB.select, hl, if_true]
    · next hl =>
      obtain ⟨B, h1, h2, h3⟩ := Given.slice_spec hi.slices .nil (.listed (g.elems m.blds)) trivial
      simp only [Given.slice] at h1 h2 h3
      have hinv := (hi.slices.append B).replace 0 h2
      rw [← h1] at hinv h3
      refine ⟨⟨hinv, ?_, ?_, hi.deps⟩, ?_⟩
      · intro s hs hc hm
        simp only [SQB.slots, List.mem_cons, List.not_mem_nil, or_false] at hs
        rcases hs with rfl | hs
        · exact Nat.lt_irrefl _ (hi.mine _ hm)
        · exact hi.own s (by simp [SQB.slots, hs]) hc hm
      · intro k hk
        have := hi.mine k hk
        simp only [Slice.alloc, List.length_append, List.length_singleton]
        omega
      · simp only [callNow, Option.toList_some, runCalls, Call.apply, QB.select, hl, if_false]
        refine congrArg Out.ok ((?_ : _ = over m.q.rest (g.elems m.blds) (m.q.groupbys.read m.blds) (m.q.unions.read m.blds)
          (m.q.ctes.map fun c => Cte.mk c.1 (c.2.2.read m.names) c.2.1)).trans (over_congr h3.symm
          (show _ = m.q.groupbys.read (Slice.alloc Builder.nil m.blds (g.elems m.blds) 0).1 by rw [h1]; exact (b2.read_append B).symm)
          (show _ = m.q.unions.read (Slice.alloc Builder.nil m.blds (g.elems m.blds) 0).1 by rw [h1]; exact (b3.read_append B).symm) rfl))
        cases hs : m.q.rest.selects
        simp [seenNow, over, hs, Fragment.withFragments]
  | groupBy g =>
    have h := appendEach_appended grow (mine := m.mineB) (p := 1) (g.elems m.blds) hi.slices (s := m.q.groupbys) rfl
      (hi.own _ (by simp [SQB.slots])) hi.mine
    simp only [QOp.run]
    refine ⟨⟨h.inv, ?_, fun k hk => Nat.lt_of_lt_of_le (hi.mine k hk) h.longer, hi.deps⟩, ?_⟩
    · intro s hs hc
      simp only [SQB.slots, List.mem_cons, List.not_mem_nil, or_false] at hs
      rcases hs with rfl | rfl | rfl
      · exact hi.own _ (by simp [SQB.slots]) hc
      · exact h.own hc
      · exact hi.own _ (by simp [SQB.slots]) hc
    · refine congrArg Out.ok ((?_ : _ = over m.q.rest _ (m.q.groupbys.read m.blds ++ g.elems m.blds) _ _).trans
        (over_congr (h.others 0 m.q.selects (by decide) rfl).symm h.read.symm (h.others 2 m.q.unions (by decide) rfl).symm rfl))
      cases hg : m.q.rest.groupbys
      simp [seenNow, over, hg, QB.groupBy, Fragment.withFragments, Fragment.appendFragments]
  | union g =>
    have h := append_appended grow (mine := m.mineB) (p := 2) hi.slices (s := m.q.unions) rfl
      (hi.own _ (by simp [SQB.slots])) hi.mine (g.elems m.blds)
    simp only [QOp.run]
    refine ⟨⟨h.inv, ?_, fun k hk => Nat.lt_of_lt_of_le (hi.mine k hk) h.longer, hi.deps⟩, ?_⟩
    · intro s hs hc
      simp only [SQB.slots, List.mem_cons, List.not_mem_nil, or_false] at hs
      rcases hs with rfl | rfl | rfl
      · exact hi.own _ (by simp [SQB.slots]) hc
      · exact hi.own _ (by simp [SQB.slots]) hc
      · exact h.own hc
    · show Out.ok (over m.q.rest (m.q.selects.read m.blds) (m.q.groupbys.read m.blds) (m.q.unions.read m.blds ++ g.elems m.blds)
        (m.q.ctes.map fun c => Cte.mk c.1 (c.2.2.read m.names) c.2.1)) = Out.ok (seenNow _)
      rw [seenNow_eq]
      exact congrArg Out.ok (over_congr (h.others 0 m.q.selects (by decide) rfl).symm (h.others 1 m.q.groupbys (by decide) rfl).symm
        h.read.symm rfl)
  | with_ n c g =>
    simp only [QOp.run]
    have hg : ∃ B, (g.slice [] m.names).1 = m.names ++ B ∧ InBounds (m.names ++ B) (g.slice [] m.names).2 ∧
        (g.slice [] m.names).2.read (m.names ++ B) = g.elems m.names := by
      obtain ⟨B, h1, h2, h3⟩ := Given.slice_spec (A := m.names) (ss := []) ⟨by simp, by simp⟩ [] g (by
        cases g with
        | listed xs => trivial
        | spread s => exact ⟨ho.1, by simp⟩)
      exact ⟨B, h1, h2.1, h3⟩
    obtain ⟨B, h1, h2, h3⟩ := hg
    rw [h1]
    refine ⟨⟨hi.slices, hi.own, hi.mine, fun d hd => ?_⟩, ?_⟩
    · rcases List.mem_append.1 hd with hd | hd
      · exact (hi.deps d hd).append B
      · rw [List.mem_singleton.1 hd]; exact h2
    · show Out.ok (over m.q.rest (m.q.selects.read m.blds) (m.q.groupbys.read m.blds) (m.q.unions.read m.blds)
        ((m.q.ctes.map fun c => Cte.mk c.1 (c.2.2.read m.names) c.2.1) ++ [⟨n, g.elems m.names, c⟩])) = Out.ok (seenNow _)
      rw [seenNow_eq]
      refine congrArg Out.ok (over_congr rfl rfl rfl ?_)
      simp only [List.map_append, List.map_cons, List.map_nil]
      rw [h3]
      congr 1
      exact List.map_congr_left fun d hd => by rw [(hi.deps d hd).read_append]
  | other c =>
    obtain ⟨hc, b, hb⟩ := ho
    have h := apply_over c hc m.q.rest (m.q.selects.read m.blds) (m.q.groupbys.read m.blds) (m.q.unions.read m.blds)
      (m.q.ctes.map fun c => Cte.mk c.1 (c.2.2.read m.names) c.2.1)
    rw [← seenNow_eq, hb] at h
    simp only [QOp.run, callNow, Option.toList_some, runCalls, hb]
    cases hx : c.apply m.q.rest with
    | ok b' =>
      rw [hx] at h
      exact ⟨⟨hi.slices, hi.own, hi.mine, hi.deps⟩, h⟩
    | err e => rw [hx] at h; cases h
    | panic p => rw [hx] at h; cases h
    | oof => rw [hx] at h; cases h

theorem history_holds {grow : Nat → Nat} {m : SQMem} {cs : List Call} (h : History grow m cs) :
    m.Inv ∧ runCalls QB.new cs = .ok (seenNow m) := by
  induction h with
  | start => exact ⟨new_inv, rfl⟩
  | @step m cs o _ hc ih =>
    obtain ⟨hi, hr⟩ := ih
    obtain ⟨hi', hr'⟩ := step_holds grow hi o hc
    refine ⟨hi', ?_⟩
    cases hcall : callNow m o with
    | none =>
      rw [hcall] at hr'
      rw [Option.toList_none, List.append_nil, hr]
      exact hr'
    | some c =>
      rw [hcall] at hr'
      rw [Option.toList_some, runCalls_snoc, hr]
      simp only [Option.toList_some, runCalls] at hr'
      dsimp only
      cases hx : c.apply (seenNow m) with
      | ok b2 => rw [hx] at hr'; exact hr'
      | err e => rw [hx] at hr'; cases hr'
      | panic p => rw [hx] at hr'; cases hr'
      | oof => rw [hx] at hr'; cases hr'

theorem append_frame (grow : Nat → Nat) (z : α) (A : List (List α)) (s : Slice) (xs : List α) (k : Nat) (hk : k < A.length)
    (ho : 0 < s.cap → s.arr ≠ k) : (s.append grow z A xs).1[k]? = A[k]? := by
  unfold Slice.append
  split
  · next h =>
    rw [List.getElem?_modify]
    by_cases hc : 0 < s.cap
    · simp [ho hc]
    · have : xs = [] := List.eq_nil_of_length_eq_zero (by omega)
      subst this
      cases A[k]? with
      | none => rfl
      | some a => simp [overwrite]
  · rw [Slice.alloc, List.getElem?_append_left hk]

theorem appendEach_frame (grow : Nat → Nat) (k : Nat) : ∀ (xs : List Builder) (A : List (List Builder)) (s : Slice), k < A.length →
    (0 < s.cap → s.arr ≠ k) → (appendEach grow xs A s).1[k]? = A[k]?
  | [], _, _, _, _ => rfl
  | x :: xs, A, s, hk, ho => by
    unfold appendEach
    have h := append_frame grow .nil A s [x] k hk ho
    refine (appendEach_frame grow k xs (s.append grow .nil A [x]).1 (s.append grow .nil A [x]).2 ?_ ?_).trans h
    · rcases append_arr grow Builder.nil A s [x] with ⟨-, -, h6⟩ | ⟨-, h6⟩ <;> omega
    · rcases append_arr grow Builder.nil A s [x] with ⟨h4, h5, -⟩ | ⟨h4, -⟩
      · rw [h4, h5]; exact ho
      · rw [h4]; omega

theorem call_frame {grow : Nat → Nat} {m : SQMem} (hi : m.Inv) (o : QOp) (ho : (callNow m o).isSome) :
    (∀ k ∈ m.mineB, (o.run grow m).blds[k]? = m.blds[k]?) ∧ (∀ k < m.names.length, (o.run grow m).names[k]? = m.names[k]?) := by
  cases o with
  | arrayB xs => cases ho
  | arrayN xs => cases ho
  | assignB k i x => cases ho
  | assignN k i x => cases ho
  | select g =>
    simp only [QOp.run]
    split
    · exact ⟨fun _ _ => rfl, fun _ _ => rfl⟩
    · exact ⟨fun k hk => List.getElem?_append_left (hi.mine k hk), fun _ _ => rfl⟩
  | groupBy g =>
    exact ⟨fun k hk => appendEach_frame grow k _ _ _ (hi.mine k hk) fun hc e => hi.own m.q.groupbys (by simp [SQB.slots]) hc (e ▸ hk), fun _ _ => rfl⟩
  | union g =>
    exact ⟨fun k hk => append_frame grow _ _ _ _ k (hi.mine k hk) fun hc e => hi.own m.q.unions (by simp [SQB.slots]) hc (e ▸ hk), fun _ _ => rfl⟩
  | with_ n c g =>
    refine ⟨fun _ _ => rfl, fun k hk => ?_⟩
    cases g with
    | listed xs => exact List.getElem?_append_left hk
    | spread s => rfl
  | other c =>
    simp only [QOp.run]
    split <;> exact ⟨fun _ _ => rfl, fun _ _ => rfl⟩

theorem history_names {grow : Nat → Nat} {m : SQMem} {cs : List Call} (h : History grow m cs) : ∀ k ∈ m.mineN, k < m.names.length := by
  induction h with
  | start => intro k hk; cases hk
  | @step m cs o _ _ ih =>
    cases o with
    | arrayN xs =>
      intro k hk
      rw [QOp.run, List.length_append, List.length_singleton]
      rcases List.mem_cons.1 hk with h | h
      · omega
      · have := ih k h; omega
    | arrayB xs => exact ih
    | assignB k i x => simp only [QOp.run]; split <;> exact ih
    | assignN k i x =>
      simp only [QOp.run]
      split
      · intro k hk; rw [List.length_modify]; exact ih k hk
      · exact ih
    | select g => simp only [QOp.run]; split <;> exact ih
    | groupBy g => exact ih
    | union g => exact ih
    | with_ n c g =>
      cases g with
      | listed xs =>
        intro k hk
        have := ih k hk
        simp only [QOp.run, Given.slice, Slice.alloc, List.length_append, List.length_singleton]
        omega
      | spread s => exact ih
    | other c => simp only [QOp.run]; split <;> exact ih

end Sqlf
