import Verif.Proofs.Query
import Verif.Proofs.Deps
/-!
# What a query made by calls needs
-/

namespace Sqlf

open Spec

/-! ## rows -/

/-- The last row with the name. -/
def lastNamed (n : Str) : List FromTable → Option FromTable
  | [] => none
  | r :: rs => match lastNamed n rs with
    | some r => some r
    | none => if r.names.appliedName = n then some r else none

theorem lastNamed_cons (n : Str) (r : FromTable) (rs : List FromTable) : lastNamed n (r :: rs) =
    match lastNamed n rs with
    | some r => some r
    | none => if r.names.appliedName = n then some r else none := rfl

theorem lastNamed_some {n : Str} {rs : List FromTable} {r : FromTable} (h : lastNamed n rs = some r) :
    r ∈ rs ∧ r.names.appliedName = n := by
  induction rs with
  | nil => cases h
  | cons x rs ih =>
    unfold lastNamed at h
    cases hx : lastNamed n rs with
    | some y =>
      rw [hx] at h
      cases h
      exact ⟨List.mem_cons_of_mem _ (ih hx).1, (ih hx).2⟩
    | none =>
      rw [hx] at h
      dsimp only at h
      split at h
      · rename_i e; cases h; exact ⟨List.mem_cons_self, e⟩
      · cases h

theorem lastNamed_mem {n : Str} {rs : List FromTable} (h : ∃ r ∈ rs, r.names.appliedName = n) :
    ∃ r, lastNamed n rs = some r := by
  induction rs with
  | nil => obtain ⟨r, hr, _⟩ := h; cases hr
  | cons x rs ih =>
    unfold lastNamed
    cases hx : lastNamed n rs with
    | some y => exact ⟨y, rfl⟩
    | none =>
      dsimp only
      obtain ⟨r, hr, hn⟩ := h
      rcases List.mem_cons.1 hr with rfl | hr
      · rw [if_pos hn]; exact ⟨_, rfl⟩
      · obtain ⟨y, hy⟩ := ih ⟨r, hr, hn⟩
        rw [hx] at hy; cases hy

theorem mem_putIn {rows : List FromTable} {j r : FromTable} :
    r ∈ putIn rows j ↔ r = j ∨ (r ∈ rows ∧ r.names.appliedName ≠ j.names.appliedName) := by
  unfold putIn
  split
  · rename_i h
    obtain ⟨x, hx, hn⟩ := List.any_eq_true.1 h
    have hn : x.names.appliedName = j.names.appliedName := by simpa using hn
    rw [List.mem_map]
    constructor
    · rintro ⟨y, hy, rfl⟩
      split
      · exact .inl rfl
      · rename_i e; exact .inr ⟨hy, e⟩
    · rintro (rfl | ⟨h1, h2⟩)
      · exact ⟨x, hx, if_pos hn⟩
      · exact ⟨r, h1, if_neg h2⟩
  · rename_i h
    rw [List.mem_append, List.mem_singleton]
    constructor
    · rintro (h1 | h1)
      · refine .inr ⟨h1, fun e => h (List.any_eq_true.2 ⟨r, h1, by simpa using e⟩)⟩
      · exact .inl h1
    · rintro (h1 | h1)
      · exact .inr h1
      · exact .inl h1.1

theorem mem_foldl_putIn {js acc : List FromTable} {r : FromTable} :
    r ∈ js.foldl putIn acc ↔ lastNamed r.names.appliedName js = some r ∨
      (lastNamed r.names.appliedName js = none ∧ r ∈ acc) := by
  induction js generalizing acc with
  | nil => simp [lastNamed]
  | cons j js ih =>
    rw [List.foldl_cons, ih, mem_putIn]
    show _ ↔ (match lastNamed r.names.appliedName js with
      | some r => some r
      | none => if j.names.appliedName = r.names.appliedName then some j else none) = some r ∨
      ((match lastNamed r.names.appliedName js with
      | some r => some r
      | none => if j.names.appliedName = r.names.appliedName then some j else none) = none ∧ r ∈ acc)
    cases lastNamed r.names.appliedName js with
    | some y => simp
    | none =>
      by_cases e : j.names.appliedName = r.names.appliedName
      · simp only [e, if_true, ne_eq, not_true, and_false, or_false, Option.some.injEq, true_and]
        constructor
        · rintro (h | h)
          · cases h
          · exact .inl h.symm
        · rintro (h | h)
          · exact .inr h.symm
          · cases h.1
      · simp only [e, if_false, true_and]
        constructor
        · rintro (h | h | h)
          · cases h
          · exact absurd (by rw [h]) e
          · exact .inr h.1
        · rintro (h | h)
          · cases h
          · exact .inr (.inr ⟨h, fun e' => e e'.symm⟩)

theorem mem_joinedBy {cs : List Call} {r : FromTable} :
    r ∈ joinedBy cs ↔ lastNamed r.names.appliedName (cs.filterMap joinGiven) = some r := by
  unfold joinedBy
  rw [mem_foldl_putIn]
  simp

theorem rowOf_gives (n : Str) (cs : List Call) : rowOf n cs = lastNamed n (cs.filterMap gives) := by
  induction cs with
  | nil => rfl
  | cons c cs ih =>
    unfold rowOf
    rw [ih, List.filterMap_cons]
    cases gives c with
    | none => dsimp only; cases lastNamed n (cs.filterMap gives) <;> rfl
    | some r => rfl

theorem gives_cases (c : Call) : (fromGiven c = gives c ∧ joinGiven c = none) ∨ (fromGiven c = none ∧ joinGiven c = gives c) := by
  cases c <;> first | exact .inl ⟨rfl, rfl⟩ | exact .inr ⟨rfl, rfl⟩

theorem rowOf_joined {n : Str} {cs : List Call} (h : ∀ r ∈ cs.filterMap fromGiven, r.names.appliedName ≠ n) :
    rowOf n cs = lastNamed n (cs.filterMap joinGiven) := by
  rw [rowOf_gives]
  induction cs with
  | nil => rfl
  | cons c cs ih =>
    have ih := ih fun r hr => h r (by
      rw [List.filterMap_cons]
      cases fromGiven c with
      | none => exact hr
      | some x => exact List.mem_cons_of_mem _ hr)
    rw [List.filterMap_cons, List.filterMap_cons]
    rcases gives_cases c with ⟨h1, h2⟩ | ⟨h1, h2⟩
    · rw [h2]
      cases hg : gives c with
      | none => exact ih
      | some r =>
        dsimp only
        rw [lastNamed_cons, ih]
        have : r.names.appliedName ≠ n := h r (by rw [List.filterMap_cons, h1, hg]; exact List.mem_cons_self)
        rw [if_neg this]
        cases lastNamed n (cs.filterMap joinGiven) <;> rfl
    · rw [h2]
      cases hg : gives c with
      | none => exact ih
      | some r =>
        dsimp only
        rw [lastNamed_cons, ih, lastNamed_cons]

theorem rowOf_from {n : Str} {cs : List Call} (h : ∀ r ∈ cs.filterMap joinGiven, r.names.appliedName ≠ n) :
    rowOf n cs = lastNamed n (cs.filterMap fromGiven) := by
  rw [rowOf_gives]
  induction cs with
  | nil => rfl
  | cons c cs ih =>
    have ih := ih fun r hr => h r (by
      rw [List.filterMap_cons]
      cases joinGiven c with
      | none => exact hr
      | some x => exact List.mem_cons_of_mem _ hr)
    rw [List.filterMap_cons, List.filterMap_cons]
    rcases gives_cases c with ⟨h1, h2⟩ | ⟨h1, h2⟩
    · rw [h1]
      cases hg : gives c with
      | none => exact ih
      | some r =>
        dsimp only
        rw [lastNamed_cons, ih, lastNamed_cons]
    · rw [h1]
      cases hg : gives c with
      | none => exact ih
      | some r =>
        dsimp only
        rw [lastNamed_cons, ih]
        have : r.names.appliedName ≠ n := h r (by rw [List.filterMap_cons, h2, hg]; exact List.mem_cons_self)
        rw [if_neg this]
        cases lastNamed n (cs.filterMap fromGiven) <;> rfl

theorem rowOf_of_joined {cs : List Call} (hn : NoClash cs) {r : FromTable} (h : r ∈ joinedBy cs) :
    rowOf r.names.appliedName cs = some r := by
  have h1 := mem_joinedBy.1 h
  rw [rowOf_joined fun f hf => hn f hf r (lastNamed_some h1).1, h1]

/-- A row that a reference resolves to is one of the tables. -/
theorem rowOf_mem {cs : List Call} (hn : NoClash cs) (ho : OneFrom cs) {n : Str} {r : FromTable}
    (h : rowOf n cs = some r) : r ∈ tablesBy cs := by
  have hg := h
  rw [rowOf_gives] at hg
  have hm := (lastNamed_some hg).1
  have hne : cs.filterMap gives ≠ [] := List.ne_nil_of_mem hm
  rw [tablesBy_eq, if_neg hne]
  obtain ⟨c, hc, hcr⟩ := List.mem_filterMap.1 hm
  rcases gives_cases c with ⟨h1, h2⟩ | ⟨h1, h2⟩
  · have hf : r ∈ cs.filterMap fromGiven := List.mem_filterMap.2 ⟨c, hc, by rw [h1, hcr]⟩
    unfold OneFrom at ho
    unfold mainOf
    match hl : cs.filterMap fromGiven with
    | [] => rw [hl] at hf; cases hf
    | [x] =>
      rw [hl, List.mem_singleton] at hf
      subst hf
      exact List.mem_cons_self
    | x :: y :: zs => rw [hl] at ho; simp at ho
  · have hj : r ∈ cs.filterMap joinGiven := List.mem_filterMap.2 ⟨c, hc, by rw [h2, hcr]⟩
    refine List.mem_cons_of_mem _ (mem_joinedBy.2 ?_)
    rw [(lastNamed_some hg).2, ← rowOf_joined, h]
    intro f hf e
    exact hn f hf r hj (by rw [e, (lastNamed_some hg).2])

/-! ## tables of a query builder made by calls -/

theorem Spec.Made.list {L : GoLib} {cs : List Call} {b : QB} (h : Made L cs b) (hn : NoClash cs) :
    b.tableList = tablesBy cs := by
  obtain ⟨b0, h1, h2⟩ := h.base
  rw [h2.tableList]
  obtain ⟨F, hFdef⟩ : ∃ F : Str → Prop, F = fun n => ∃ m ∈ cs.filterMap fromGiven, m.names.appliedName = n := ⟨_, rfl⟩
  have hF : FromNames F cs := by
    intro t ht hne
    rw [hFdef]
    exact ⟨fromRow t, List.mem_filterMap.2 ⟨_, ht, by simp [fromGiven, gives, hne]⟩, rfl⟩
  refine calls_list (pre := []) dictOk_new (tablesInv_new F) rfl hF ?_ h1
  intro c hc r hr
  rw [hFdef]
  rintro ⟨m, hm, e⟩
  exact hn m hm r (List.mem_filterMap.2 ⟨c, hc, hr⟩) e

theorem Spec.Made.resolve {L : GoLib} {cs : List Call} {b : QB} (h : Made L cs b) (n : Str) :
    Spec.resolve b n = rowOf n cs := by
  obtain ⟨b0, h1, h2⟩ := h.base
  rw [h2.resolve, calls_resolve dictOk_new h1]
  cases rowOf n cs <;> rfl

theorem Spec.Made.names {L : GoLib} {cs : List Call} {b : QB} (h : Made L cs b) : NamesResolve b := by
  intro n r hr
  rw [h.resolve, rowOf_gives] at hr
  exact (lastNamed_some hr).2

theorem mem_tableRefsL {bs : List Builder} {x : Str} : x ∈ tableRefsL bs ↔ ∃ b ∈ bs, x ∈ tableRefs b := by
  induction bs with
  | nil => simp [tableRefsL]
  | cons b bs ih => simp [tableRefsL, ih]

theorem Spec.Made.roots {L : GoLib} {cs : List Call} {b : QB} (h : Made L cs b) (x : Str) :
    x ∈ rootRefs b ↔ x ∈ tableRefsL (expressionsOf cs) := by
  have hm := h.fields
  obtain ⟨p, hs⟩ := hm.selects
  obtain ⟨ts, ht, ht'⟩ := hm.touches
  unfold rootRefs expressionsOf
  rw [hs, ht, hm.conditions, hm.groupbys, hm.orders]
  simp only [tableRefsL_append, List.mem_append, tableRefsL, tableRefs, List.append_nil]
  have hx : x ∈ tableRefsL ts → x ∈ tableRefsL ((orderedBy cs).map (·.column)) := by
    intro hx
    obtain ⟨t, h1, h2⟩ := mem_tableRefsL.1 hx
    obtain ⟨_, o, ho, i, rfl⟩ := ht' t h1
    simp only [Fragment.Ff, tableRefs, tableRefsL, List.append_nil] at h2
    exact mem_tableRefsL.2 ⟨o.column, List.mem_map.2 ⟨o, ho, rfl⟩, h2⟩
  constructor
  · rintro ((h1 | h1 | h1 | h1) | h1)
    · exact .inl (.inl (.inl h1))
    · exact .inr (hx h1)
    · exact .inl (.inl (.inr h1))
    · exact .inl (.inr h1)
    · exact .inr h1
  · rintro (((h1 | h1) | h1) | h1)
    · exact .inl (.inl h1)
    · exact .inl (.inr (.inr (.inl h1)))
    · exact .inl (.inr (.inr (.inr h1)))
    · exact .inr h1

theorem Spec.Made.needed {L : GoLib} {cs : List Call} {b : QB} (h : Made L cs b) (t : Str) :
    Needed b t ↔ NeededBy cs t := by
  constructor
  · intro hn
    induction hn with
    | root h1 => exact .root ((h.roots _).1 h1)
    | on _ hr hu ih => exact .on ih (by rw [← h.resolve]; exact hr) hu
  · intro hn
    induction hn with
    | root h1 => exact .root ((h.roots _).2 h1)
    | on _ hr hu ih => exact .on ih (by rw [h.resolve]; exact hr) hu

theorem fromGiven_row {c : Call} {r : FromTable} (h : fromGiven c = some r) : rowRefs r = [] ∧ r.names.name ≠ [] := by
  cases c <;> simp [fromGiven, gives] at h
  obtain ⟨h1, rfl⟩ := h
  exact ⟨rfl, h1⟩

theorem gives_row {c : Call} {r : FromTable} (h : gives c = some r) : r.names.name ≠ [] := by
  rcases call_cases c with ⟨t, rfl⟩ | ⟨⟨t, k, on, opt⟩, hj⟩ | ⟨h1, h2⟩
  · exact (fromGiven_row (c := .from_ t) h).2
  · rw [gives_join hj] at h
    cases on with
    | none => cases h
    | some on =>
      simp only [Option.bind_some] at h
      split at h
      · cases h
      · rename_i ht; cases h; exact ht
  · rw [gives_other h1 h2] at h; cases h

theorem Spec.Made.mainRefs {L : GoLib} {cs : List Call} {b : QB} (h : Made L cs b) (hn : NoClash cs) :
    ∀ main, b.tableList.head? = some main → ∀ t r, Spec.resolve b t = some r → r.names = main.names → rowRefs r = [] := by
  intro main hmain t r hr e
  rw [h.list hn, tablesBy_eq] at hmain
  split at hmain
  · cases hmain
  · simp only [List.head?_cons, Option.some.injEq] at hmain
    rw [h.resolve, rowOf_gives] at hr
    obtain ⟨c, hc, hcr⟩ := List.mem_filterMap.1 (lastNamed_some hr).1
    rcases gives_cases c with ⟨h1, h2⟩ | ⟨h1, h2⟩
    · exact (fromGiven_row (h1.trans hcr)).1
    · exfalso
      cases hm : mainOf cs with
      | none =>
        rw [hm] at hmain
        subst hmain
        exact gives_row hcr (by rw [e]; rfl)
      | some m =>
        rw [hm] at hmain
        cases hmain
        exact hn m (List.mem_of_getLast? hm) r (List.mem_filterMap.2 ⟨c, hc, h2.trans hcr⟩) (by rw [e]; rfl)

/-- The collected dependencies of a query builder made by calls. -/
theorem Spec.Made.collected {L : GoLib} {cs : List Call} {b : QB} (h : Made L cs b) (hn : NoClash cs) {dep : Deps}
    (hd : b.collectDependencies = .ok dep) : ∃ main rest dep0, tablesBy cs = main :: rest ∧
      TableDeps b main dep0 ∧ CteDeps b (tablesBy cs) dep0 dep := by
  obtain ⟨main, rest, dep0, h1, h2, h3⟩ := Sqlf.collected h.names (h.mainRefs hn) hd
  rw [h.list hn] at h1 h3
  exact ⟨main, rest, dep0, h1, h2, h3⟩

end Sqlf
