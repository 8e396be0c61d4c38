import Verif.Spec.Memory
/-!
# Lemmas: slices and pointers of fragments
-/

namespace Sqlf

open Spec

/-! ## slices -/

theorem Spec.InBounds.read_append {A : List (List α)} {s : Slice} (h : InBounds A s) (B : List (List α)) :
    s.read (A ++ B) = s.read A := by
  obtain ⟨h1, h2⟩ := h
  by_cases hc : 0 < s.cap
  · obtain ⟨a, ha, -⟩ := h2 hc
    unfold Slice.read
    rw [List.getD_eq_getElem?_getD, List.getD_eq_getElem?_getD]
    rw [List.getElem?_append_left (List.getElem?_eq_some_iff.1 ha).1]
  · have : s.len = 0 := by omega
    simp [Slice.read, this]

theorem Spec.InBounds.append {A : List (List α)} {s : Slice} (h : InBounds A s) (B : List (List α)) : InBounds (A ++ B) s := by
  refine ⟨h.1, fun hc => ?_⟩
  obtain ⟨a, ha, hl⟩ := h.2 hc
  exact ⟨a, by rw [List.getElem?_append_left (List.getElem?_eq_some_iff.1 ha).1, ha], hl⟩

theorem Spec.InBounds.lt {A : List (List α)} {s : Slice} (h : InBounds A s) (hc : 0 < s.cap) : s.arr < A.length := by
  obtain ⟨a, ha, -⟩ := h.2 hc
  exact (List.getElem?_eq_some_iff.1 ha).1

/-- The slices of all fragments: in bounds, and no slice has spare room in another one. -/
structure SliceInv (A : List (List α)) (ss : List Slice) : Prop where
  bounds : ∀ (i : Nat) (s : Slice), ss[i]? = some s → InBounds A s
  alone : ∀ (i j : Nat) (s s' : Slice), i ≠ j → ss[i]? = some s → ss[j]? = some s' → SpareFree s s'

theorem SliceInv.append {A : List (List α)} {ss : List Slice} (h : SliceInv A ss) (B : List (List α)) : SliceInv (A ++ B) ss :=
  ⟨fun i s hs => (h.bounds i s hs).append B, h.alone⟩

/-- A slice that may be given to a fragment. -/
def Fits (A : List (List α)) (ss : List Slice) (s : Slice) : Prop :=
  InBounds A s ∧ ∀ s' ∈ ss, SpareFree s s' ∧ SpareFree s' s

theorem SliceInv.set {A : List (List α)} {ss : List Slice} (h : SliceInv A ss) {s : Slice} (p : Nat) (hb : InBounds A s)
    (hf : ∀ (j : Nat) (s' : Slice), j ≠ p → ss[j]? = some s' →
      SpareFree s s' ∧ SpareFree s' s) :
    SliceInv A (ss.set p s) := by
  refine ⟨fun i t ht => ?_, fun i j t t' hij ht ht' => ?_⟩
  · rw [List.getElem?_set] at ht
    split at ht
    · split at ht
      · cases ht; exact hb
      · simp at ht
    · exact h.bounds i t ht
  · rw [List.getElem?_set] at ht ht'
    split at ht
    · next hpi =>
      subst hpi
      split at ht
      · cases ht
        rw [if_neg hij] at ht'
        exact (hf j t' (fun e => hij e.symm) ht').1
      · simp at ht
    · next hpi =>
      split at ht'
      · next hpj =>
        subst hpj
        split at ht'
        · cases ht'
          exact (hf i t (fun e => hpi e.symm) ht).2
        · simp at ht'
      · exact h.alone i j t t' hij ht ht'

theorem SliceInv.push {A : List (List α)} {ss : List Slice} (h : SliceInv A ss) {s : Slice} (hf : Fits A ss s) :
    SliceInv A (ss ++ [s]) := by
  have key : ∀ (i : Nat) (t : Slice), (ss ++ [s])[i]? = some t → (ss[i]? = some t ∧ i < ss.length) ∨ (i = ss.length ∧ t = s) := by
    intro i t ht
    rcases Nat.lt_trichotomy i ss.length with hl | hl | hl
    · exact .inl ⟨by rwa [List.getElem?_append_left hl] at ht, hl⟩
    · subst hl
      rw [List.getElem?_append_right (Nat.le_refl _)] at ht
      simp at ht
      exact .inr ⟨rfl, ht.symm⟩
    · rw [List.getElem?_append_right (by omega)] at ht
      have := (List.getElem?_eq_some_iff.1 ht).1
      simp at this
      omega
  refine ⟨fun i t ht => ?_, fun i j t t' hij ht ht' => ?_⟩
  · rcases key i t ht with ⟨ht, -⟩ | ⟨-, rfl⟩
    · exact h.bounds i t ht
    · exact hf.1
  · rcases key i t ht with ⟨hi, -⟩ | ⟨hi, hts⟩
    · rcases key j t' ht' with ⟨hj, -⟩ | ⟨hj, hts'⟩
      · exact h.alone i j t t' hij hi hj
      · rw [hts']
        exact (hf.2 t (List.mem_of_getElem? hi)).2
    · rcases key j t' ht' with ⟨hj, -⟩ | ⟨hj, hts'⟩
      · rw [hts]
        exact (hf.2 t' (List.mem_of_getElem? hj)).1
      · omega

/-- What the slice of variadic arguments is like. -/
theorem Given.slice_spec {A : List (List α)} {ss : List Slice} (h : SliceInv A ss) (z : α) (g : Given α) (hg : NotShared A ss g) :
    ∃ B, (g.slice z A).1 = A ++ B ∧ Fits (A ++ B) ss (g.slice z A).2 ∧ (g.slice z A).2.read (A ++ B) = g.elems A := by
  cases g with
  | listed xs =>
    refine ⟨[xs], by simp [Given.slice, Slice.alloc], ⟨⟨by simp [Given.slice, Slice.alloc], fun _ => ?_⟩, fun s' hs' => ⟨fun _ hl => ?_, fun he h1 h2 => ?_⟩⟩, ?_⟩
    · exact ⟨xs, by simp [Given.slice, Slice.alloc], by simp [Given.slice, Slice.alloc]⟩
    · simp [Given.slice, Slice.alloc] at hl
    · obtain ⟨i, hi⟩ := List.getElem?_of_mem hs'
      have := (h.bounds i s' hi).lt (by omega)
      simp only [Given.slice, Slice.alloc] at he
      omega
    · simp [Given.slice, Slice.alloc, Slice.read, Given.elems]
  | spread s =>
    refine ⟨[], by simp [Given.slice], ?_, by simp [Given.slice, Given.elems]⟩
    rw [List.append_nil]
    exact hg

theorem overwrite_other (a : List α) (i : Nat) (xs : List α) (h : i + xs.length ≤ a.length) (off len : Nat) (hd : off + len ≤ i ∨ i + xs.length ≤ off) :
    ((overwrite a i xs).drop off).take len = (a.drop off).take len := by
  unfold overwrite
  apply List.ext_getElem?
  intro k
  rw [List.getElem?_take, List.getElem?_take]
  split
  · next hk =>
    rw [List.getElem?_drop, List.getElem?_drop]
    rcases hd with hd | hd
    · rw [List.append_assoc, List.getElem?_append_left (by simp; omega), List.getElem?_take, if_pos (by omega)]
    · rw [List.getElem?_append_right (by simp; omega), List.getElem?_drop]
      congr 1
      simp
      omega
  · rfl

theorem overwrite_take (a : List α) (i : Nat) (xs : List α) (h : i + xs.length ≤ a.length) (off len : Nat) (hi : off + len = i) :
    ((overwrite a i xs).drop off).take (len + xs.length) = (a.drop off).take len ++ xs := by
  subst hi
  unfold overwrite
  have h1 : (a.take (off + len) ++ xs ++ a.drop (off + len + xs.length)).drop off =
      (a.drop off).take len ++ xs ++ a.drop (off + len + xs.length) := by
    rw [List.append_assoc, List.drop_append_of_le_length (by rw [List.length_take]; omega), List.drop_take,
      ← List.append_assoc, Nat.add_sub_cancel_left]
  rw [h1, List.take_append_of_le_length (by simp; omega)]
  exact List.take_of_length_le (by simp; omega)

theorem overwrite_length (a : List α) (i : Nat) (xs : List α) (h : i + xs.length ≤ a.length) : (overwrite a i xs).length = a.length := by
  simp [overwrite]; omega

/-- What `append` does to the slice of one fragment and to the others. -/
theorem Slice.append_spec {A : List (List α)} {ss : List Slice} (h : SliceInv A ss) (grow : Nat → Nat) (z : α) (p : Nat) (s : Slice)
    (hp : ss[p]? = some s) (xs : List α) :
    SliceInv (s.append grow z A xs).1 (ss.set p (s.append grow z A xs).2) ∧
      (s.append grow z A xs).2.read (s.append grow z A xs).1 = s.read A ++ xs ∧
      ∀ (q : Nat) (t : Slice), q ≠ p → ss[q]? = some t → t.read (s.append grow z A xs).1 = t.read A := by
  have hb := h.bounds p s hp
  unfold Slice.append
  split
  · next hle =>
    by_cases hc : 0 < s.cap
    · obtain ⟨a, ha, hl⟩ := hb.2 hc
      have hget : ∀ k : Nat, (A.modify s.arr fun a => overwrite a (s.off + s.len) xs)[k]? = (A[k]?).map fun b => if s.arr = k then overwrite b (s.off + s.len) xs else b := by
        intro k; rw [List.getElem?_modify]; rfl
      have hbounds : ∀ t : Slice, InBounds A t → InBounds (A.modify s.arr fun a => overwrite a (s.off + s.len) xs) t := by
        intro t ht
        refine ⟨ht.1, fun hc' => ?_⟩
        obtain ⟨b, hb', hl'⟩ := ht.2 hc'
        refine ⟨_, by rw [hget, hb']; rfl, ?_⟩
        split
        · next he =>
          rw [← he, ha] at hb'
          cases hb'
          rw [overwrite_length _ _ _ (by omega)]
          exact hl'
        · exact hl'
      refine ⟨?_, ?_, fun q t hq ht => ?_⟩
      · have hi : SliceInv (A.modify s.arr fun a => overwrite a (s.off + s.len) xs) ss := ⟨fun i t ht => hbounds t (h.bounds i t ht), h.alone⟩
        refine hi.set p ?_ fun j s' hj hs' => ⟨fun he h1 h2 => ?_, h.alone j p s' s hj hs' hp⟩
        · exact ⟨hle, (hbounds s hb).2⟩
        · have h1' : s.len + xs.length < s.cap := h1
          have := h.alone p j s s' (fun e => hj e.symm) hp hs' he (by omega) h2
          show s'.off + s'.cap ≤ s.off + (s.len + xs.length) ∨ s.off + s.cap ≤ s'.off
          omega
      · unfold Slice.read
        rw [List.getD_eq_getElem?_getD, List.getD_eq_getElem?_getD, hget, ha]
        simp only [Option.map_some, if_true, Option.getD_some]
        exact overwrite_take a _ xs (by omega) _ _ rfl
      · by_cases hx : xs = []
        · subst hx
          unfold Slice.read
          rw [List.getD_eq_getElem?_getD, List.getD_eq_getElem?_getD, hget]
          cases A[t.arr]? with
          | none => rfl
          | some b => simp [overwrite]
        · have hlen : 0 < xs.length := List.length_pos_iff.2 hx
          by_cases ht0 : 0 < t.cap
          · have hfree := h.alone p q s t (fun e => hq e.symm) hp ht
            unfold Slice.read
            rw [List.getD_eq_getElem?_getD, List.getD_eq_getElem?_getD, hget]
            by_cases he : s.arr = t.arr
            · have := hfree he (by omega) ht0
              have hlc := (h.bounds q t ht).1
              rw [← he, ha]
              simp only [Option.map_some, if_true, Option.getD_some]
              exact overwrite_other a _ xs (by omega) _ _ (by omega)
            · simp only [if_neg he, Option.map_id']
          · have : t.len = 0 := by have := (h.bounds q t ht).1; omega
            simp [Slice.read, this]
    · have hx : xs = [] := List.length_eq_zero_iff.1 (by omega)
      subst hx
      have hm : (A.modify s.arr fun a => overwrite a (s.off + s.len) []) = A := by
        apply List.ext_getElem?
        intro k
        rw [List.getElem?_modify]
        cases A[k]? with
        | none => rfl
        | some b => by_cases he : s.arr = k <;> simp [overwrite, he]
      have hs : ss.set p s = ss := by
        obtain ⟨hlt, he⟩ := List.getElem?_eq_some_iff.1 hp
        rw [← he, List.set_getElem_self]
      simp only [List.length_nil, Nat.add_zero, List.append_nil] at *
      rw [hm, hs]
      exact ⟨h, rfl, fun _ _ _ _ => rfl⟩
  · next hgt =>
    unfold Slice.alloc
    refine ⟨?_, ?_, fun q t hq ht => (h.bounds q t ht).read_append _⟩
    · refine (h.append _).set p ⟨by simp, fun _ => ⟨s.read A ++ xs ++ List.replicate (grow (s.len + xs.length)) z, by simp, by simp; omega⟩⟩ fun j s' hj hs' => ⟨fun he h1 h2 => ?_, fun he h1 h2 => ?_⟩
      · have := (h.bounds j s' hs').lt h2
        have he : A.length = s'.arr := he
        omega
      · have := (h.bounds j s' hs').lt (by omega)
        have he : s'.arr = A.length := he
        omega
    · generalize s.read A = ys
      simp only [Slice.read, List.getD_eq_getElem?_getD, List.getElem?_append_right (Nat.le_refl _), Nat.sub_self,
        List.getElem?_cons_zero, Option.getD_some, List.drop_zero]
      exact List.take_left

/-- The invariant of the memory. -/
structure SMem.Inv (m : SMem) : Prop where
  args : SliceInv m.vals (m.objs.map (·.args))
  frags : SliceInv m.blds (m.objs.map (·.frags))

theorem map_modify_same (l : List α) (p : Nat) (f : α → α) (g : α → β) (h : ∀ a, g (f a) = g a) : (l.modify p f).map g = l.map g := by
  apply List.ext_getElem?
  intro k
  rw [List.getElem?_map, List.getElem?_map, List.getElem?_modify]
  cases l[k]? with
  | none => rfl
  | some a => by_cases he : p = k <;> simp [he, h]

theorem map_modify_set (l : List α) (p : Nat) (f : α → α) (g : α → β) (b : β) (h : ∀ a, g (f a) = b) : (l.modify p f).map g = (l.map g).set p b := by
  apply List.ext_getElem?
  intro k
  rw [List.getElem?_map, List.getElem?_modify, List.getElem?_set, List.getElem?_map, List.length_map]
  by_cases he : p = k
  · subst he
    by_cases hl : p < l.length
    · rw [List.getElem?_eq_getElem hl]; simp [hl, h]
    · rw [List.getElem?_eq_none (by omega)]; simp [hl]
  · cases l[k]? with
    | none => simp [he]
    | some a => simp [he]

/-- Fitting slices replace the slice of a fragment. -/
theorem SliceInv.replace {A : List (List α)} {ss : List Slice} (h : SliceInv A ss) {s : Slice} (p : Nat) (hf : Fits A ss s) : SliceInv A (ss.set p s) :=
  h.set p hf.1 fun _ s' _ hs' => hf.2 s' (List.mem_of_getElem? hs')

theorem contents_get (m : SMem) (q : Nat) : (contents m)[q]? = (m.objs[q]?).map fun o => ⟨o.raw, o.args.read m.vals, o.frags.read m.blds, o.pre, o.suf⟩ := by
  rw [contents, List.getElem?_map]

theorem arrays_contents (m : SMem) (hi : m.Inv) (B : List (List Val)) (C : List (List PBuilder)) :
    contents ⟨m.vals ++ B, m.blds ++ C, m.objs⟩ = contents m := by
  unfold contents
  apply List.map_congr_left
  intro o ho
  obtain ⟨i, hi'⟩ := List.getElem?_of_mem ho
  have h1 := hi.args.bounds i o.args (by rw [List.getElem?_map, hi']; rfl)
  have h2 := hi.frags.bounds i o.frags (by rw [List.getElem?_map, hi']; rfl)
  simp only [h1.read_append, h2.read_append]

theorem arrays_inv {m : SMem} (hi : m.Inv) (B : List (List Val)) (C : List (List PBuilder)) : SMem.Inv ⟨m.vals ++ B, m.blds ++ C, m.objs⟩ :=
  ⟨hi.args.append B, hi.frags.append C⟩

theorem slices_step (grow : Nat → Nat) {m : SMem} (hi : m.Inv) (o : SOp) (ho : Careful m o) :
    (o.run grow m).Inv ∧ contents (o.run grow m) = (elementsOf m o).run (contents m) := by
  cases o with
  | new raw as fs =>
    obtain ⟨B, hB, hf, hr⟩ := Given.slice_spec hi.args .nil as ho.1
    obtain ⟨C, hC, hf', hr'⟩ := Given.slice_spec hi.frags (.plain .nil) fs ho.2
    have he : (SOp.new raw as fs).run grow m = ⟨m.vals ++ B, m.blds ++ C, m.objs ++ [⟨raw, (as.slice .nil m.vals).2, (fs.slice (.plain .nil) m.blds).2, [], []⟩]⟩ := by
      rw [← hB, ← hC]; rfl
    rw [he]
    refine ⟨⟨?_, ?_⟩, ?_⟩
    · simp only [List.map_append, List.map_cons, List.map_nil]
      exact (hi.args.append B).push hf
    · simp only [List.map_append, List.map_cons, List.map_nil]
      exact (hi.frags.append C).push hf'
    · have := arrays_contents m hi B C
      unfold contents at this ⊢
      simp only at this ⊢
      rw [List.map_append, this]
      simp [elementsOf, FOp.run, hr, hr']
  | withPrefix p s =>
    refine ⟨⟨?_, ?_⟩, ?_⟩
    · show SliceInv m.vals ((m.objs.modify p _).map _)
      rw [map_modify_same]
      · exact hi.args
      intro _; rfl
    · show SliceInv m.blds ((m.objs.modify p _).map _)
      rw [map_modify_same]
      · exact hi.frags
      intro _; rfl
    · apply List.ext_getElem?
      intro q
      simp only [elementsOf, FOp.run]
      rw [contents_get, List.getElem?_modify, contents_get]
      simp only [SOp.run, List.getElem?_modify]
      cases m.objs[q]? with
      | none => rfl
      | some x => by_cases h : p = q <;> simp [h]
  | withSuffix p s =>
    refine ⟨⟨?_, ?_⟩, ?_⟩
    · show SliceInv m.vals ((m.objs.modify p _).map _)
      rw [map_modify_same]
      · exact hi.args
      intro _; rfl
    · show SliceInv m.blds ((m.objs.modify p _).map _)
      rw [map_modify_same]
      · exact hi.frags
      intro _; rfl
    · apply List.ext_getElem?
      intro q
      simp only [elementsOf, FOp.run]
      rw [contents_get, List.getElem?_modify, contents_get]
      simp only [SOp.run, List.getElem?_modify]
      cases m.objs[q]? with
      | none => rfl
      | some x => by_cases h : p = q <;> simp [h]
  | withArgs p g =>
    obtain ⟨B, hB, hf, hr⟩ := Given.slice_spec hi.args .nil g ho
    have he : (SOp.withArgs p g).run grow m = ⟨m.vals ++ B, m.blds ++ [], m.objs.modify p fun o => { o with args := (g.slice .nil m.vals).2 }⟩ := by
      rw [← hB, List.append_nil]; rfl
    rw [he]
    refine ⟨⟨?_, ?_⟩, ?_⟩
    · show SliceInv _ ((m.objs.modify p _).map _)
      rw [map_modify_set]
      · exact (hi.args.append B).replace p hf
      intro _; rfl
    · show SliceInv _ ((m.objs.modify p _).map _)
      rw [map_modify_same]
      · exact hi.frags.append []
      intro _; rfl
    · have hc := arrays_contents m hi B []
      apply List.ext_getElem?
      intro q
      simp only [elementsOf, FOp.run]
      rw [contents_get, List.getElem?_modify (l := contents m), ← hc, contents_get]
      simp only [List.getElem?_modify]
      cases m.objs[q]? with
      | none => rfl
      | some x => by_cases h : p = q <;> simp [h, hr]
  | withFragments p g =>
    obtain ⟨C, hC, hf, hr⟩ := Given.slice_spec hi.frags (.plain .nil) g ho
    have he : (SOp.withFragments p g).run grow m = ⟨m.vals ++ [], m.blds ++ C, m.objs.modify p fun o => { o with frags := (g.slice (.plain .nil) m.blds).2 }⟩ := by
      rw [← hC, List.append_nil]; rfl
    rw [he]
    refine ⟨⟨?_, ?_⟩, ?_⟩
    · show SliceInv _ ((m.objs.modify p _).map _)
      rw [map_modify_same]
      · exact hi.args.append []
      intro _; rfl
    · show SliceInv _ ((m.objs.modify p _).map _)
      rw [map_modify_set]
      · exact (hi.frags.append C).replace p hf
      intro _; rfl
    · have hc := arrays_contents m hi [] C
      apply List.ext_getElem?
      intro q
      simp only [elementsOf, FOp.run]
      rw [contents_get, List.getElem?_modify (l := contents m), ← hc, contents_get]
      simp only [List.getElem?_modify]
      cases m.objs[q]? with
      | none => rfl
      | some x => by_cases h : p = q <;> simp [h, hr]
  | appendArgs p g =>
    simp only [elementsOf, FOp.run, SOp.run]
    split
    · next hn =>
      refine ⟨hi, ?_⟩
      apply List.ext_getElem?
      intro q
      rw [List.getElem?_modify, contents_get]
      by_cases h : p = q
      · subst h; rw [hn]; rfl
      · cases m.objs[q]? <;> simp [h]
    · next o hs =>
      obtain ⟨h1, h2, h3⟩ := Slice.append_spec hi.args grow .nil p o.args (by rw [List.getElem?_map, hs]; rfl) (g.elems m.vals)
      refine ⟨⟨?_, ?_⟩, ?_⟩
      · simp only [List.map_set]; exact h1
      · simp only [List.map_set]
        have : (m.objs.map (·.frags)).set p o.frags = m.objs.map (·.frags) := by
          apply List.ext_getElem?
          intro k
          rw [List.getElem?_set, List.length_map]
          split
          · next e => subst e; rw [List.getElem?_map, hs, if_pos (List.getElem?_eq_some_iff.1 hs).1]; rfl
          · rfl
        rw [this]; exact hi.frags
      · apply List.ext_getElem?
        intro q
        rw [contents_get, List.getElem?_modify, contents_get]
        by_cases h : p = q
        · subst h
          simp only [List.getElem?_set, if_true, if_pos (List.getElem?_eq_some_iff.1 hs).1, hs]
          simp [h2]
        · simp only [List.getElem?_set, if_neg h]
          cases hx : m.objs[q]? with
          | none => rfl
          | some x =>
            have := h3 q x.args (fun e => h e.symm) (by rw [List.getElem?_map, hx]; rfl)
            simp [h, this]
  | appendFragments p g =>
    simp only [elementsOf, FOp.run, SOp.run]
    split
    · next hn =>
      refine ⟨hi, ?_⟩
      apply List.ext_getElem?
      intro q
      rw [List.getElem?_modify, contents_get]
      by_cases h : p = q
      · subst h; rw [hn]; rfl
      · cases m.objs[q]? <;> simp [h]
    · next o hs =>
      obtain ⟨h1, h2, h3⟩ := Slice.append_spec hi.frags grow (.plain .nil) p o.frags (by rw [List.getElem?_map, hs]; rfl) (g.elems m.blds)
      refine ⟨⟨?_, ?_⟩, ?_⟩
      · simp only [List.map_set]
        have : (m.objs.map (·.args)).set p o.args = m.objs.map (·.args) := by
          apply List.ext_getElem?
          intro k
          rw [List.getElem?_set, List.length_map]
          split
          · next e => subst e; rw [List.getElem?_map, hs, if_pos (List.getElem?_eq_some_iff.1 hs).1]; rfl
          · rfl
        rw [this]; exact hi.args
      · simp only [List.map_set]; exact h1
      · apply List.ext_getElem?
        intro q
        rw [contents_get, List.getElem?_modify, contents_get]
        by_cases h : p = q
        · subst h
          simp only [List.getElem?_set, if_true, if_pos (List.getElem?_eq_some_iff.1 hs).1, hs]
          simp [h2]
        · simp only [List.getElem?_set, if_neg h]
          cases hx : m.objs[q]? with
          | none => rfl
          | some x =>
            have := h3 q x.frags (fun e => h e.symm) (by rw [List.getElem?_map, hx]; rfl)
            simp [h, this]

theorem Spec.ReachedMem.inv {grow : Nat → Nat} {m : SMem} (h : ReachedMem grow m) : m.Inv := by
  induction h with
  | start => exact ⟨⟨by simp, by simp⟩, ⟨by simp, by simp⟩⟩
  | array xs _ ih => have := arrays_inv ih [xs] []; simpa using this
  | arrayB xs _ ih => have := arrays_inv ih [] [xs]; simpa using this
  | call _ hc ih => exact (slices_step grow ih _ hc).1

end Sqlf
